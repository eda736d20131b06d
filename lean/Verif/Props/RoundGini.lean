import Verif.Spec.RoundGini
import Verif.Spec.Hist
import Verif.Model.RoundGini
import Verif.Proofs.Rounding
import Verif.Proofs.Variance
import Verif.Proofs.Criteria
import Verif.Props.Rounding
import Verif.Props.Binning
import Verif.Proofs.MakeHists
import Mathlib.Algebra.Order.Field.Power

/-!
# C144: the Gini criterion in floating-point arithmetic
-/

namespace FF

open Spec

set_option linter.unusedSectionVars false

variable {K : Type} [Field K] [LinearOrder K] [IsStrictOrderedRing K] [FloorRing K] [NpFun K]

section
variable {p : Nat} {rnd : K → K}

/-- One more rounding after an error of at most `c·x`. -/
theorem Nearest.after (h : Nearest p rnd) (hp : 1 ≤ p) {x y b e : K} (hy : |y - x| ≤ e) (hx : |x| ≤ b) :
    |rnd y - x| ≤ e + 1 / 2 ^ p * (b + e) := by
  have h1 := h.rel hp y
  have h2 : |y| ≤ b + e := by
    have := abs_sub_abs_le_abs_sub y x
    linarith
  have h3 : |rnd y - x| ≤ |rnd y - y| + |y - x| := abs_sub_le _ _ _
  have h4 : (1 / 2 ^ p : K) * |y| ≤ 1 / 2 ^ p * (b + e) := mul_le_mul_of_nonneg_left h2 (by positivity)
  linarith

theorem SumsTo.length_pos {l : List K} {s : K} (h : SumsTo rnd l s) : 1 ≤ l.length := by
  induction h with
  | one x => simp
  | add _ _ hp ih _ => rw [hp.length_eq, List.length_append]; omega

/-- The error of a rounded sum of non-negative numbers. -/
theorem SumsTo.error (h : Nearest p rnd) (hp : 1 ≤ p) {l : List K} {s : K} (hs : SumsTo rnd l s) (h0 : ∀ x ∈ l, 0 ≤ x) :
    |s - l.sum| ≤ ((1 + 1 / 2 ^ p) ^ (l.length - 1) - 1) * l.sum := by
  have hu : (0 : K) < 1 / 2 ^ p := by positivity
  induction hs with
  | one x => simp
  | @add a b l s t ha hb hperm iha ihb =>
    have hla := ha.length_pos
    have hlb := hb.length_pos
    have h0a : ∀ x ∈ a, 0 ≤ x := fun x hx => h0 x (hperm.mem_iff.2 (List.mem_append_left _ hx))
    have h0b : ∀ x ∈ b, 0 ≤ x := fun x hx => h0 x (hperm.mem_iff.2 (List.mem_append_right _ hx))
    have hsa := List.sum_nonneg h0a
    have hsb := List.sum_nonneg h0b
    have hlen : l.length = a.length + b.length := by rw [hperm.length_eq, List.length_append]
    have hsum : l.sum = a.sum + b.sum := by rw [hperm.sum_eq, List.sum_append]
    obtain ⟨M, hM⟩ : ∃ M : K, M = (1 + 1 / 2 ^ p) ^ (l.length - 2) := ⟨_, rfl⟩
    have hmono : ∀ n, n ≤ l.length - 2 → (1 + 1 / 2 ^ p : K) ^ n ≤ M := fun n hn => by
      rw [hM]
      exact pow_le_pow_right₀ (by linarith) hn
    have hM1 : (1 : K) ≤ M := by rw [hM]; exact one_le_pow₀ (by linarith)
    have ea : |s - a.sum| ≤ (M - 1) * a.sum := (iha h0a).trans (mul_le_mul_of_nonneg_right (by linarith [hmono (a.length - 1) (by omega)]) hsa)
    have eb : |t - b.sum| ≤ (M - 1) * b.sum := (ihb h0b).trans (mul_le_mul_of_nonneg_right (by linarith [hmono (b.length - 1) (by omega)]) hsb)
    have e : |s + t - (a.sum + b.sum)| ≤ (M - 1) * (a.sum + b.sum) := by
      have : s + t - (a.sum + b.sum) = (s - a.sum) + (t - b.sum) := by ring
      rw [this]
      refine (abs_add_le _ _).trans ?_
      linarith
    have hab : |a.sum + b.sum| ≤ a.sum + b.sum := (abs_of_nonneg (by linarith)).le
    have key := h.after hp e hab
    rw [hsum]
    refine key.trans (le_of_eq ?_)
    have hpow : (1 + 1 / 2 ^ p : K) ^ (l.length - 1) = (1 + 1 / 2 ^ p) * M := by
      rw [hM, ← pow_succ']
      congr 1
      omega
    rw [hpow]
    ring

end

section
variable {p : Nat} {rnd : K → K} {sum : List K → K}

theorem freq_sq_sum_le (classes ys : List K) (hn : classes.Nodup) (hy : ∀ y ∈ ys, y ∈ classes) :
    0 ≤ (classes.map (fun c => freq ys c ^ 2)).sum ∧ (classes.map (fun c => freq ys c ^ 2)).sum ≤ 1 := by
  constructor
  · apply List.sum_nonneg
    intro x hx
    obtain ⟨c, _, rfl⟩ := List.mem_map.1 hx
    exact sq_nonneg _
  · by_cases h : ys = []
    · subst h
      have : ∀ cs : List K, (cs.map (fun c => freq ([] : List K) c ^ 2)).sum = 0 := by
        intro cs
        induction cs with
        | nil => rfl
        | cons c cs ih => rw [List.map_cons, List.sum_cons, ih]; simp [freq]
      rw [this]
      exact zero_le_one
    · rw [← sum_freq hn hy h]
      have : ∀ cs : List K, (cs.map (fun c => freq ys c ^ 2)).sum ≤ (cs.map (fun c => freq ys c)).sum := by
        intro cs
        induction cs with
        | nil => exact le_refl _
        | cons c cs ih =>
          rw [List.map_cons, List.map_cons, List.sum_cons, List.sum_cons]
          have h1 := freq_nonneg ys c
          have h2 := freq_le_one ys c
          nlinarith
      exact this classes

/-- The rounded Gini index of the labels `ys`. -/
theorem giniR_error (h : Nearest p rnd) (hp : 1 ≤ p) (hs : SumFn rnd sum) {classes ys : List K} (hn : classes.Nodup)
    (hy : ∀ y ∈ ys, y ∈ classes) (hne : classes ≠ []) :
    |giniR rnd sum (countsOf classes ys) - gini ys| ≤ (1 + 1 / 2 ^ p) ^ (classes.length + 4) - 1 := by
  have hu : (0 : K) < 1 / 2 ^ p := by positivity
  obtain ⟨u, hudef⟩ : ∃ u : K, u = 1 / 2 ^ p := ⟨_, rfl⟩
  rw [← hudef] at hu ⊢
  obtain ⟨hS0, hS1⟩ := freq_sq_sum_le classes ys hn hy
  rw [gini_eq hn hy]
  unfold giniR
  rw [sum_countsOf hn hy]
  -- the squares
  have hsq : ∀ c : K, |rnd ((if ys.length = 0 then 0 else rnd ((ys.count c : K) / (ys.length : K))) *
      (if ys.length = 0 then 0 else rnd ((ys.count c : K) / (ys.length : K)))) - freq ys c ^ 2| ≤ ((1 + u) ^ 3 - 1) * freq ys c ^ 2 := by
    intro c
    have hf0 := freq_nonneg ys c
    split_ifs with h0
    · have : freq ys c = 0 := by unfold freq; rw [h0]; simp
      rw [this, mul_zero, h.zero]
      simp
    · have h1 := h.rel hp ((ys.count c : K) / (ys.length : K))
      change |_ - freq ys c| ≤ _ * |freq ys c| at h1
      rw [abs_of_nonneg hf0, ← hudef] at h1
      have h2 : |rnd ((ys.count c : K) / (ys.length : K)) * rnd ((ys.count c : K) / (ys.length : K)) - freq ys c ^ 2| ≤
          ((1 + u) ^ 2 - 1) * freq ys c ^ 2 := by
        generalize rnd ((ys.count c : K) / (ys.length : K)) = q at h1 ⊢
        generalize freq ys c = f at hf0 h1 ⊢
        obtain ⟨h3, h4⟩ := abs_le.1 h1
        have e : q * q - f ^ 2 = (q - f) * (q + f) := by ring
        rw [e, abs_mul]
        have h5 : |q + f| ≤ (2 + u) * f := by
          rw [abs_le]
          constructor <;> nlinarith
        calc |q - f| * |q + f| ≤ (u * f) * ((2 + u) * f) := mul_le_mul h1 h5 (abs_nonneg _) (by positivity)
          _ = ((1 + u) ^ 2 - 1) * f ^ 2 := by ring
      refine (h.after hp h2 (le_of_eq (abs_of_nonneg (sq_nonneg (freq ys c))))).trans (le_of_eq ?_)
      rw [← hudef]
      ring
  obtain ⟨X, hX⟩ : ∃ X, X = (probsR rnd (countsOf classes ys) ys.length).map (fun x => rnd (x * x)) := ⟨_, rfl⟩
  have hXeq : X = classes.map (fun c => rnd ((if ys.length = 0 then 0 else rnd ((ys.count c : K) / (ys.length : K))) *
      (if ys.length = 0 then 0 else rnd ((ys.count c : K) / (ys.length : K))))) := by
    rw [hX]
    unfold probsR countsOf
    rw [List.map_map, List.map_map]
    rfl
  have hlen : X.length = classes.length := by rw [hXeq, List.length_map]
  have hX0 : ∀ x ∈ X, 0 ≤ x := by
    intro x hx
    rw [hXeq] at hx
    obtain ⟨c, _, rfl⟩ := List.mem_map.1 hx
    have := h.mono (mul_self_nonneg (if ys.length = 0 then 0 else rnd ((ys.count c : K) / (ys.length : K))))
    rw [h.zero] at this
    exact this
  have hXsum : |X.sum - (classes.map (fun c => freq ys c ^ 2)).sum| ≤ ((1 + u) ^ 3 - 1) * (classes.map (fun c => freq ys c ^ 2)).sum := by
    rw [hXeq]
    generalize classes = cs
    induction cs with
    | nil => simp
    | cons c cs ih =>
      simp only [List.map_cons, List.sum_cons]
      have h1 := hsq c
      rw [add_sub_add_comm]
      refine (abs_add_le _ _).trans ?_
      rw [mul_add]
      exact add_le_add h1 ih
  have hXne : X ≠ [] := by
    intro e
    rw [e] at hlen
    exact hne (List.length_eq_zero_iff.1 hlen.symm)
  have hsum := (hs X hXne).error h hp hX0
  rw [hlen, ← hudef] at hsum
  rw [← hX]
  generalize (classes.map (fun c => freq ys c ^ 2)).sum = S at hS0 hS1 hXsum ⊢
  have hB : (1 + u) ^ (classes.length - 1) ≤ (1 + u) ^ classes.length := pow_le_pow_right₀ (by linarith) (by omega)
  have hB1 : (1 : K) ≤ (1 + u) ^ classes.length := one_le_pow₀ (by linarith)
  have hA1 : (1 : K) ≤ (1 + u) ^ 3 := one_le_pow₀ (by linarith)
  have hpow : (1 + u) ^ (classes.length + 4) = (1 + u) ^ classes.length * (1 + u) ^ 3 * (1 + u) := by ring
  rw [hpow]
  generalize (1 + u) ^ classes.length = B at hB hB1 ⊢
  generalize (1 + u) ^ (classes.length - 1) = B' at hB hsum
  generalize (1 + u) ^ 3 = A at hA1 hXsum ⊢
  have hXs0 : 0 ≤ X.sum := List.sum_nonneg hX0
  have e1 : |sum X - S| ≤ B * A - 1 := by
    have h1 : |sum X - S| ≤ |sum X - X.sum| + |X.sum - S| := abs_sub_le _ _ _
    have h2 : X.sum ≤ A * S := by have := (abs_le.1 hXsum).2; linarith
    have h3 : (B' - 1) * X.sum ≤ (B - 1) * (A * S) :=
      (mul_le_mul_of_nonneg_right (by linarith) hXs0).trans (mul_le_mul_of_nonneg_left h2 (by linarith))
    have h4 : |sum X - S| ≤ (B * A - 1) * S := by nlinarith
    have h5 : (B * A - 1) * S ≤ (B * A - 1) * 1 := by
      apply mul_le_mul_of_nonneg_left hS1
      nlinarith
    linarith
  have e2 : |1 - sum X - (1 - S)| ≤ B * A - 1 := by
    have : 1 - sum X - (1 - S) = -(sum X - S) := by ring
    rw [this, abs_neg]
    exact e1
  have e3 : |1 - S| ≤ 1 := by rw [abs_le]; constructor <;> linarith
  refine (h.after hp e2 e3).trans (le_of_eq ?_)
  rw [← hudef]
  ring

theorem gini_range {classes ys : List K} (hn : classes.Nodup) (hy : ∀ y ∈ ys, y ∈ classes) : 0 ≤ gini ys ∧ gini ys ≤ 1 := by
  obtain ⟨h1, h2⟩ := freq_sq_sum_le classes ys hn hy
  rw [gini_eq hn hy]
  constructor <;> linarith


theorem addRows_countsOf (classes a b : List K) : addRows (countsOf classes a) (countsOf classes b) = countsOf classes (a ++ b) := by
  unfold addRows countsOf
  induction classes with
  | nil => rfl
  | cons c cs ih =>
    simp only [List.map_cons, List.zipWith_cons_cons, ih, List.count_append]

theorem countsOf_perm {a b : List K} (classes : List K) (h : a.Perm b) : countsOf classes a = countsOf classes b := by
  unfold countsOf
  exact List.map_congr_left (fun c _ => h.count_eq c)

/-- One weighted side of the reduction. -/
theorem side_error (h : Nearest p rnd) (hp : 1 ≤ p) {w g g' e : K} (hw0 : 0 ≤ w) (hg0 : 0 ≤ g) (hg1 : g ≤ 1)
    (he : |g' - g| ≤ e) : |rnd (rnd w * g') - w * g| ≤ w * ((1 + 1 / 2 ^ p) ^ 2 * (1 + e) - 1) := by
  have hu : (0 : K) < 1 / 2 ^ p := by positivity
  obtain ⟨u, hudef⟩ : ∃ u : K, u = 1 / 2 ^ p := ⟨_, rfl⟩
  have hrel := h.rel hp w
  rw [abs_of_nonneg hw0, ← hudef] at hrel
  have he0 : 0 ≤ e := (abs_nonneg _).trans he
  have e1 : |rnd w * g' - w * g| ≤ w * ((1 + u) * (1 + e) - 1) := by
    have e2 : rnd w * g' - w * g = (rnd w - w) * g' + w * (g' - g) := by ring
    rw [e2]
    refine (abs_add_le _ _).trans ?_
    rw [abs_mul, abs_mul, abs_of_nonneg hw0]
    have h1 : |g'| ≤ 1 + e := by
      have := abs_sub_abs_le_abs_sub g' g
      rw [abs_of_nonneg hg0] at this
      linarith
    have h2 : |rnd w - w| * |g'| ≤ u * w * (1 + e) := mul_le_mul hrel h1 (abs_nonneg _) (by rw [hudef]; positivity)
    have h3 : w * |g' - g| ≤ w * e := mul_le_mul_of_nonneg_left he hw0
    nlinarith
  have hb : |w * g| ≤ w := by
    rw [abs_of_nonneg (mul_nonneg hw0 hg0)]
    nlinarith
  refine (h.after hp e1 hb).trans (le_of_eq ?_)
  rw [← hudef]
  ring

/-- **C144** (the error): for every number of classes and rows, the computed Gini reduction of a threshold is within `giniErr` of the true
change of the weighted Gini index. -/
theorem C144_reduction_partial (h : Nearest p rnd) (hp : 1 ≤ p) (hs : SumFn rnd sum) {classes : List K} (hn : classes.Nodup)
    {S : List (K × K)} (hS : S ≠ []) (hy : ∀ s ∈ S, s.2 ∈ classes) (t : K) :
    |reductionR rnd sum (countsOf classes (labelsLe S t)) (countsOf classes (labelsGt S t)) - change gini S t| ≤
      giniErr p classes.length := by
  have hu : (0 : K) < 1 / 2 ^ p := by positivity
  have hne : classes ≠ [] := by
    obtain ⟨s, hs'⟩ := List.exists_mem_of_ne_nil S hS
    exact List.ne_nil_of_mem (hy s hs')
  have hperm : (labelsLe S t ++ labelsGt S t).Perm (S.map Prod.snd) := (labels_perm S t).symm
  have hyA : ∀ y ∈ S.map Prod.snd, y ∈ classes := by
    intro y hy'
    obtain ⟨s, hs', rfl⟩ := List.mem_map.1 hy'
    exact hy s hs'
  have hyL : ∀ y ∈ labelsLe S t, y ∈ classes := fun y hy' => hyA y (hperm.mem_iff.1 (List.mem_append_left _ hy'))
  have hyR : ∀ y ∈ labelsGt S t, y ∈ classes := fun y hy' => hyA y (hperm.mem_iff.1 (List.mem_append_right _ hy'))
  have eL := giniR_error h hp hs hn hyL hne
  have eR := giniR_error h hp hs hn hyR hne
  have eA := giniR_error h hp hs hn hyA hne
  obtain ⟨hL0, hL1⟩ := gini_range hn hyL
  obtain ⟨hR0, hR1⟩ := gini_range hn hyR
  obtain ⟨hA0, hA1⟩ := gini_range hn hyA
  have hlen : (labelsLe S t).length + (labelsGt S t).length = S.length := by
    have := hperm.length_eq
    rwa [List.length_append, List.length_map] at this
  have hSpos : (0 : K) < (S.length : K) := by exact_mod_cast List.length_pos_iff.2 hS
  unfold reductionR change
  rw [sum_countsOf hn hyL, sum_countsOf hn hyR, addRows_countsOf, countsOf_perm classes hperm, hlen]
  dsimp only
  obtain ⟨wl, hwl⟩ : ∃ w : K, w = ((labelsLe S t).length : K) / (S.length : K) := ⟨_, rfl⟩
  obtain ⟨wr, hwr⟩ : ∃ w : K, w = ((labelsGt S t).length : K) / (S.length : K) := ⟨_, rfl⟩
  have hw : wl + wr = 1 := by
    rw [hwl, hwr, ← add_div, ← Nat.cast_add, hlen]
    exact div_self hSpos.ne'
  have hwl0 : 0 ≤ wl := by rw [hwl]; positivity
  have hwr0 : 0 ≤ wr := by rw [hwr]; positivity
  rw [← hwl, ← hwr]
  have sL := side_error h hp hwl0 hL0 hL1 eL
  have sR := side_error h hp hwr0 hR0 hR1 eR
  unfold giniErr
  generalize giniR rnd sum (countsOf classes (labelsLe S t)) = gl at *
  generalize giniR rnd sum (countsOf classes (labelsGt S t)) = gr at *
  generalize giniR rnd sum (countsOf classes (S.map Prod.snd)) = ga at *
  generalize gini (labelsLe S t) = IL at *
  generalize gini (labelsGt S t) = IR at *
  generalize gini (S.map Prod.snd) = IA at *
  generalize rnd (rnd wl * gl) = L at *
  generalize rnd (rnd wr * gr) = R at *
  obtain ⟨u, hudef⟩ : ∃ u : K, u = 1 / 2 ^ p := ⟨_, rfl⟩
  obtain ⟨E, hE⟩ : ∃ E : K, E = (1 + u) ^ (classes.length + 4) := ⟨_, rfl⟩
  have hpow : (1 + u) ^ (classes.length + 8) = E * (1 + u) ^ 4 := by rw [hE]; ring
  rw [← hudef] at hu eL eR eA sL sR ⊢
  rw [hpow]
  rw [← hE] at eL eR eA sL sR
  have hE1 : 1 ≤ E := by rw [hE]; exact one_le_pow₀ (by linarith)
  have e1 : |L + R - (wl * IL + wr * IR)| ≤ (1 + u) ^ 2 * E - 1 := by
    have e2 : L + R - (wl * IL + wr * IR) = (L - wl * IL) + (R - wr * IR) := by ring
    rw [e2]
    refine (abs_add_le _ _).trans ((add_le_add sL sR).trans (le_of_eq ?_))
    rw [← add_mul, hw]
    ring
  have hb0 : 0 ≤ wl * IL + wr * IR := add_nonneg (mul_nonneg hwl0 hL0) (mul_nonneg hwr0 hR0)
  have hb1 : wl * IL + wr * IR ≤ 1 := by nlinarith
  have e3 := h.after hp e1 (show |wl * IL + wr * IR| ≤ 1 by rw [abs_of_nonneg hb0]; exact hb1)
  rw [← hudef] at e3
  have e4 : |rnd (L + R) - ga - (wl * IL + wr * IR - IA)| ≤ ((1 + u) ^ 3 * E - 1) + (E - 1) := by
    have e5 : rnd (L + R) - ga - (wl * IL + wr * IR - IA) = (rnd (L + R) - (wl * IL + wr * IR)) - (ga - IA) := by ring
    rw [e5]
    refine (abs_sub _ _).trans ?_
    have e6 : (1 + u) ^ 2 * E - 1 + u * (1 + ((1 + u) ^ 2 * E - 1)) = (1 + u) ^ 3 * E - 1 := by ring
    linarith
  have hc : |wl * IL + wr * IR - IA| ≤ 1 := by rw [abs_le]; constructor <;> linarith
  refine (h.after hp e4 hc).trans ?_
  rw [← hudef]
  have h3 : (1 + u) ^ 3 * E ≤ (1 + u) ^ 4 * E := by
    apply mul_le_mul_of_nonneg_right _ (by linarith)
    exact pow_le_pow_right₀ (by linarith) (by omega)
  have h4 : (1 + u) * E ≤ (1 + u) ^ 4 * E := by
    apply mul_le_mul_of_nonneg_right _ (by linarith)
    calc (1 + u) = (1 + u) ^ 1 := (pow_one _).symm
      _ ≤ (1 + u) ^ 4 := pow_le_pow_right₀ (by linarith) (by omega)
  nlinarith

/-- How large the bound is: at most `4(k+8)` units of rounding. -/
theorem giniErr_le (p k : Nat) (hk : 2 * (k + 8) ≤ 2 ^ p) : (giniErr p k : K) ≤ 4 * ((k : K) + 8) / 2 ^ p := by
  have hu : (0 : K) < 1 / 2 ^ p := by positivity
  unfold giniErr
  obtain ⟨u, hudef⟩ : ∃ u : K, u = 1 / 2 ^ p := ⟨_, rfl⟩
  rw [← hudef] at hu ⊢
  have hm : ∀ m : Nat, (1 + u) ^ m * (1 - m * u) ≤ 1 := by
    intro m
    induction m with
    | zero => simp
    | succ m ih =>
      have h1 : (1 + u) * (1 - ((m + 1 : Nat) : K) * u) ≤ 1 - m * u := by
        push_cast
        have : (0 : K) ≤ (m : K) := Nat.cast_nonneg m
        nlinarith [mul_nonneg this (mul_pos hu hu).le, mul_pos hu hu]
      calc (1 + u) ^ (m + 1) * (1 - ((m + 1 : Nat) : K) * u) = (1 + u) ^ m * ((1 + u) * (1 - ((m + 1 : Nat) : K) * u)) := by ring
        _ ≤ (1 + u) ^ m * (1 - m * u) := mul_le_mul_of_nonneg_left h1 (by positivity)
        _ ≤ 1 := ih
  have h1 := hm (k + 8)
  have h2 : ((k + 8 : Nat) : K) * u ≤ 1 / 2 := by
    rw [hudef, mul_one_div, div_le_iff₀ (by positivity)]
    have : ((2 * (k + 8) : Nat) : K) ≤ ((2 ^ p : Nat) : K) := Nat.cast_le.2 hk
    push_cast at this ⊢
    linarith
  have h3 : 4 * ((k : K) + 8) / 2 ^ p = 4 * (((k + 8 : Nat) : K) * u) := by
    rw [hudef]
    push_cast
    ring
  rw [h3]
  have h0 : 0 ≤ ((k + 8 : Nat) : K) * u := by positivity
  generalize ((k + 8 : Nat) : K) * u = v at h0 h1 h2 ⊢
  have hP : (1 + u) ^ (k + 8) ≤ 1 + 2 * v := by
    have hP0 : 0 ≤ (1 + u) ^ (k + 8) := by positivity
    generalize (1 + u) ^ (k + 8) = P at h1 hP0 ⊢
    by_contra hc
    push Not at hc
    nlinarith
  linarith


/-- The smallest of computed values that are within `E` of the true ones. -/
theorem pickR_near {α : Type} {f g : α → K} {cands : List α} {E : K} (herr : ∀ c ∈ cands, |f c - g c| ≤ E) :
    (∀ i m, pickR (cands.map f) = some (i, m) → ∃ c, cands[i]? = some c ∧ m = f c ∧ (∀ c' ∈ cands, g c ≤ g c' + 2 * E) ∧ g c < E) ∧
    (pickR (cands.map f) = none → ∀ c ∈ cands, -E ≤ g c) ∧
    (∀ i c, cands[i]? = some c → g c < -E → (∀ (j : Nat) c', cands[j]? = some c' → j ≠ i → g c + 2 * E < g c') →
      ∃ m, pickR (cands.map f) = some (i, m)) := by
  have first : ∀ m, m ∈ cands.map f → ∃ c, cands[(cands.map f).findIdx (fun v => decide (v = m))]? = some c ∧ m = f c ∧ c ∈ cands := by
    intro m hm
    have hlt : (cands.map f).findIdx (fun v => decide (v = m)) < (cands.map f).length :=
      List.findIdx_lt_length_of_exists ⟨m, hm, by simp⟩
    have hval := List.findIdx_getElem (w := hlt)
    generalize (cands.map f).findIdx (fun v => decide (v = m)) = i at hlt hval ⊢
    have hlt' : i < cands.length := by rwa [List.length_map] at hlt
    refine ⟨cands[i], List.getElem?_eq_getElem hlt', ?_, List.getElem_mem hlt'⟩
    have := of_decide_eq_true hval
    rw [List.getElem_map] at this
    exact this.symm
  have range := fun c hc' => abs_le.1 (herr c hc')
  refine ⟨?_, ?_, ?_⟩
  · intro i m hpick
    unfold pickR at hpick
    cases hmin : npMin (cands.map f) with
    | none => rw [hmin] at hpick; cases hpick
    | some m' =>
      rw [hmin] at hpick
      dsimp only at hpick
      split_ifs at hpick with hneg
      obtain ⟨rfl, rfl⟩ := Prod.mk.inj (Option.some.inj hpick)
      obtain ⟨c, h1, h2, h3⟩ := first m' (npMin_mem hmin)
      refine ⟨c, h1, h2, fun c' hc' => ?_, ?_⟩
      · have := npMin_le hmin (List.mem_map.2 ⟨c', hc', rfl⟩)
        have a := range c h3
        have b := range c' hc'
        linarith [a.1, b.2]
      · have a := range c h3
        linarith [a.1]
  · intro hpick c hc'
    unfold pickR at hpick
    obtain ⟨m, hmin⟩ := npMin_isSome (l := cands.map f) (List.ne_nil_of_mem (List.mem_map.2 ⟨c, hc', rfl⟩))
    rw [hmin] at hpick
    dsimp only at hpick
    split_ifs at hpick with hneg
    have := npMin_le hmin (List.mem_map.2 ⟨c, hc', rfl⟩)
    have a := range c hc'
    linarith [a.2]
  · intro i c hi hneg hbest
    have hcm : c ∈ cands := List.mem_of_getElem? hi
    obtain ⟨m, hmin⟩ := npMin_isSome (l := cands.map f) (List.ne_nil_of_mem (List.mem_map.2 ⟨c, hcm, rfl⟩))
    have hle := npMin_le hmin (List.mem_map.2 ⟨c, hcm, rfl⟩)
    obtain ⟨c', h1, h2, h3⟩ := first m (npMin_mem hmin)
    have a := range c hcm
    have b := range c' h3
    refine ⟨m, ?_⟩
    unfold pickR
    rw [hmin]
    dsimp only
    rw [if_pos (by linarith [a.2])]
    by_cases hij : (cands.map f).findIdx (fun v => decide (v = m)) = i
    · rw [hij]
    · have := hbest _ c' h1 hij
      linarith [a.2, b.1]

/-- The computed value of a candidate: the samples of a feature (value, label) and a threshold. -/
def candR (rnd : K → K) (sum : List K → K) (classes : List K) (c : List (K × K) × K) : K :=
  reductionR rnd sum (countsOf classes (labelsLe c.1 c.2)) (countsOf classes (labelsGt c.1 c.2))

/-- **C144** (the choice): the chosen candidate is a best one up to `2 * giniErr` and loses at most `giniErr`; without a choice no
candidate improves by more than `giniErr`; a candidate that is better than all the others by more than `2 * giniErr` is chosen. Missing
for the full statement: candidates that close to each other or to zero, see `C144_refuted`. -/
theorem C144_choice_partial (h : Nearest p rnd) (hp : 1 ≤ p) (hs : SumFn rnd sum) {classes : List K} (hn : classes.Nodup)
    {cands : List (List (K × K) × K)} (hc : ∀ c ∈ cands, c.1 ≠ [] ∧ ∀ s ∈ c.1, s.2 ∈ classes) :
    (∀ i m, pickR (cands.map (candR rnd sum classes)) = some (i, m) → ∃ c, cands[i]? = some c ∧ m = candR rnd sum classes c ∧
      (∀ c' ∈ cands, change gini c.1 c.2 ≤ change gini c'.1 c'.2 + 2 * giniErr p classes.length) ∧
      change gini c.1 c.2 < giniErr p classes.length) ∧
    (pickR (cands.map (candR rnd sum classes)) = none → ∀ c ∈ cands, -giniErr p classes.length ≤ change gini c.1 c.2) ∧
    (∀ i c, cands[i]? = some c → change gini c.1 c.2 < -giniErr p classes.length →
      (∀ (j : Nat) c', cands[j]? = some c' → j ≠ i → change gini c.1 c.2 + 2 * giniErr p classes.length < change gini c'.1 c'.2) →
      ∃ m, pickR (cands.map (candR rnd sum classes)) = some (i, m)) := by
  have herr : ∀ c ∈ cands, |candR rnd sum classes c - change gini c.1 c.2| ≤ giniErr p classes.length :=
    fun c hc' => C144_reduction_partial h hp hs hn (hc c hc').1 (hc c hc').2 c.2
  generalize (giniErr p classes.length : K) = E at herr ⊢
  obtain ⟨h1, h2, h3⟩ := pickR_near (f := candR rnd sum classes) (g := fun c => change gini c.1 c.2) herr
  exact ⟨h1, h2, h3⟩

/-- A sum of multiples of a unit is exact as long as it is small. -/
theorem SumsTo.exact (h : Nearest p rnd) {e : ℤ} {l : List K} {s : K} (hs : SumsTo rnd l s) (hm : ∀ x ∈ l, ∃ k : ℤ, x = k * 2 ^ e)
    (hsmall : (l.map abs).sum < 2 ^ p * 2 ^ e) : s = l.sum := by
  have he : (0 : K) < 2 ^ e := two_zpow_pos e
  have mult : ∀ l : List K, (∀ x ∈ l, ∃ k : ℤ, x = k * 2 ^ e) → ∃ k : ℤ, l.sum = k * 2 ^ e := by
    intro l
    induction l with
    | nil => exact fun _ => ⟨0, by simp⟩
    | cons x l ih =>
      intro hl
      obtain ⟨k, hk⟩ := hl x List.mem_cons_self
      obtain ⟨k', hk'⟩ := ih (fun y hy => hl y (List.mem_cons_of_mem _ hy))
      refine ⟨k + k', ?_⟩
      rw [List.sum_cons, hk, hk']
      push_cast
      ring
  have absle : ∀ l : List K, |l.sum| ≤ (l.map abs).sum := by
    intro l
    induction l with
    | nil => simp
    | cons x l ih =>
      rw [List.sum_cons, List.map_cons, List.sum_cons]
      exact (abs_add_le _ _).trans (by linarith)
  have abs0 : ∀ l : List K, 0 ≤ (l.map abs).sum := fun l => (abs_nonneg _).trans (absle l)
  induction hs with
  | one x => simp
  | @add a b l s t ha hb hperm iha ihb =>
    have hsum : (l.map abs).sum = (a.map abs).sum + (b.map abs).sum := by
      rw [(hperm.map abs).sum_eq, List.map_append, List.sum_append]
    have ea := iha (fun x hx => hm x (hperm.mem_iff.2 (List.mem_append_left _ hx))) (by linarith [abs0 b])
    have eb := ihb (fun x hx => hm x (hperm.mem_iff.2 (List.mem_append_right _ hx))) (by linarith [abs0 a])
    have hl : l.sum = a.sum + b.sum := by rw [hperm.sum_eq, List.sum_append]
    rw [ea, eb, ← hl]
    obtain ⟨k, hk⟩ := mult l hm
    refine h.exact ⟨k, e, ?_, hk⟩
    have h1 := absle l
    rw [hk, abs_mul, abs_of_pos he] at h1
    have h2 : |(k : K)| < 2 ^ p := lt_of_mul_lt_mul_right (h1.trans_lt hsmall) he.le
    exact_mod_cast h2

/-- **C144** (pure nodes): if all labels are equal, the computed Gini index is exactly 0, so no split of a pure node is reported. -/
theorem C144_pure (h : Nearest p rnd) (hp : 1 ≤ p) (hs : SumFn rnd sum) {classes : List K} (hn : classes.Nodup)
    {cands : List (List (K × K) × K)} {y : K} (hy : y ∈ classes) (hc : ∀ c ∈ cands, ∀ s ∈ c.1, s.2 = y) (hne : ∀ c ∈ cands, c.1 ≠ []) :
    pickR (cands.map (candR rnd sum classes)) = none := by
  have one : rnd (1 : K) = 1 := h.exact ⟨1, 0, by
    rw [abs_one]
    exact one_lt_pow₀ (by norm_num) (by omega), by simp⟩
  have key : ∀ ys : List K, (∀ z ∈ ys, z = y) → ys ≠ [] → giniR rnd sum (countsOf classes ys) = 0 := by
    intro ys hys hne'
    have hlen : ys.length ≠ 0 := fun e => hne' (List.length_eq_zero_iff.1 e)
    have hcount : ∀ c, ys.count c = if c = y then ys.length else 0 := by
      intro c
      split_ifs with e
      · subst e
        exact List.count_eq_length.2 (fun z hz => (hys z hz).symm)
      · exact List.count_eq_zero.2 (fun hc' => e (hys c hc'))
    have hX : (probsR rnd (countsOf classes ys) ys.length).map (fun x => rnd (x * x)) = classes.map (fun c => if c = y then (1 : K) else 0) := by
      unfold probsR countsOf
      rw [List.map_map, List.map_map]
      refine List.map_congr_left (fun c _ => ?_)
      simp only [Function.comp_apply]
      rw [if_neg hlen, hcount c]
      split_ifs with e
      · rw [div_self (by exact_mod_cast hlen), one, mul_one, one]
      · rw [Nat.cast_zero, zero_div, h.zero, mul_zero, h.zero]
    have hsum1 : (classes.map (fun c => if c = y then (1 : K) else 0)).sum = 1 := by
      clear hX
      induction classes with
      | nil => cases hy
      | cons c cs ih =>
        rw [List.nodup_cons] at hn
        rw [List.map_cons, List.sum_cons]
        by_cases e : c = y
        · subst e
          have : cs.map (fun c' => if c' = c then (1 : K) else 0) = cs.map (fun _ => (0 : K)) :=
            List.map_congr_left (fun c' hc' => if_neg (fun e' : c' = c => hn.1 (e' ▸ hc')))
          rw [if_pos rfl, this]
          simp
        · rw [if_neg e, ih hn.2 ((List.mem_cons.1 hy).resolve_left (fun e' => e e'.symm)), zero_add]
    have habs : ((classes.map (fun c => if c = y then (1 : K) else 0)).map abs) = classes.map (fun c => if c = y then (1 : K) else 0) := by
      rw [List.map_map]
      refine List.map_congr_left (fun c _ => ?_)
      simp only [Function.comp_apply]
      split_ifs <;> simp
    have hsx := hs (classes.map (fun c => if c = y then (1 : K) else 0)) (by
      intro e
      rw [List.map_eq_nil_iff.1 e] at hy
      cases hy)
    have hval := hsx.exact h (e := 0) (by
      intro x hx
      obtain ⟨c, _, rfl⟩ := List.mem_map.1 hx
      split_ifs
      · exact ⟨1, by simp⟩
      · exact ⟨0, by simp⟩) (by
      rw [habs, hsum1]
      rw [zpow_zero, mul_one]
      exact one_lt_pow₀ (by norm_num) (by omega))
    unfold giniR
    rw [sum_countsOf hn (fun z hz => hys z hz ▸ hy), hX, hval, hsum1, sub_self, h.zero]
  have empty : (countsOf classes ([] : List K)).sum = 0 := sum_countsOf hn (by simp)
  have hzero : ∀ c ∈ cands, candR rnd sum classes c = 0 := by
    intro c hc'
    have hperm : (labelsLe c.1 c.2 ++ labelsGt c.1 c.2).Perm (c.1.map Prod.snd) := (labels_perm c.1 c.2).symm
    have hA : ∀ z ∈ c.1.map Prod.snd, z = y := by
      intro z hz
      obtain ⟨s, hs', rfl⟩ := List.mem_map.1 hz
      exact hc c hc' s hs'
    have hL : ∀ z ∈ labelsLe c.1 c.2, z = y := fun z hz => hA z (hperm.mem_iff.1 (List.mem_append_left _ hz))
    have hR : ∀ z ∈ labelsGt c.1 c.2, z = y := fun z hz => hA z (hperm.mem_iff.1 (List.mem_append_right _ hz))
    have side : ∀ ys : List K, (∀ z ∈ ys, z = y) → ∀ w : K, (ys = [] → w = 0) → rnd (rnd w * giniR rnd sum (countsOf classes ys)) = 0 := by
      intro ys hys w hw
      by_cases e : ys = []
      · rw [hw e, h.zero, zero_mul, h.zero]
      · rw [key ys hys e, mul_zero, h.zero]
    unfold candR reductionR
    dsimp only
    rw [side _ hL _ (by intro e; rw [e, empty]; simp), side _ hR _ (by intro e; rw [e, empty]; simp), addRows_countsOf,
      countsOf_perm classes hperm, key _ hA (by simpa using hne c hc'), add_zero, h.zero, sub_zero, h.zero]
  unfold pickR
  cases hmin : npMin (cands.map (candR rnd sum classes)) with
  | none => rfl
  | some m =>
    obtain ⟨c, hc', rfl⟩ := List.mem_map.1 (npMin_mem hmin)
    dsimp only
    rw [if_neg (by rw [hzero c hc']; exact lt_irrefl _)]

/-- Without rounding the computed value is the change of the weighted Gini index. -/
theorem C144_exact {classes : List K} (hn : classes.Nodup) {S : List (K × K)} (hy : ∀ s ∈ S, s.2 ∈ classes) (t : K) :
    reductionR id List.sum (countsOf classes (labelsLe S t)) (countsOf classes (labelsGt S t)) = change gini S t := by
  have hperm : (labelsLe S t ++ labelsGt S t).Perm (S.map Prod.snd) := (labels_perm S t).symm
  have hyA : ∀ y ∈ S.map Prod.snd, y ∈ classes := by
    intro y hy'
    obtain ⟨s, hs', rfl⟩ := List.mem_map.1 hy'
    exact hy s hs'
  have hyL : ∀ y ∈ labelsLe S t, y ∈ classes := fun y hy' => hyA y (hperm.mem_iff.1 (List.mem_append_left _ hy'))
  have hyR : ∀ y ∈ labelsGt S t, y ∈ classes := fun y hy' => hyA y (hperm.mem_iff.1 (List.mem_append_right _ hy'))
  have hlen : (labelsLe S t).length + (labelsGt S t).length = S.length := by
    have := hperm.length_eq
    rwa [List.length_append, List.length_map] at this
  have key : ∀ ys : List K, (∀ y ∈ ys, y ∈ classes) → giniR id List.sum (countsOf classes ys) = gini ys := by
    intro ys hys
    rw [gini_eq hn hys]
    unfold giniR probsR
    rw [sum_countsOf hn hys]
    unfold countsOf
    rw [List.map_map, List.map_map]
    simp only [id]
    congr 2
    refine List.map_congr_left (fun c _ => ?_)
    simp only [Function.comp_apply]
    split_ifs with h0
    · unfold freq
      rw [h0]
      simp
    · unfold freq
      ring
  unfold reductionR change
  rw [sum_countsOf hn hyL, sum_countsOf hn hyR, addRows_countsOf, countsOf_perm classes hperm, hlen, key _ hyL, key _ hyR, key _ hyA]
  rfl

theorem SumsTo.two {x y s : K} (h : SumsTo rnd [x, y] s) : s = rnd (x + y) := by
  generalize hl : [x, y] = l at h
  cases h with
  | one z => cases hl
  | @add a b _ s t ha hb hperm =>
    subst hl
    have h1 := ha.length_pos
    have h2 := hb.length_pos
    have h3 := hperm.length_eq
    rw [List.length_append] at h3
    simp only [List.length_cons, List.length_nil] at h3
    obtain ⟨a', rfl⟩ := List.length_eq_one_iff.1 (show a.length = 1 by omega)
    obtain ⟨b', rfl⟩ := List.length_eq_one_iff.1 (show b.length = 1 by omega)
    have one : ∀ {z w : K}, SumsTo rnd [z] w → w = z := by
      intro z w hw
      generalize hl : [z] = l at hw
      cases hw with
      | one z' => exact (List.cons.inj hl).1.symm
      | add ha' hb' hp' =>
        subst hl
        have := hp'.length_eq
        rw [List.length_append] at this
        have := ha'.length_pos
        have := hb'.length_pos
        simp only [List.length_cons, List.length_nil] at *
        omega
    rw [one ha, one hb]
    have : (x + y : K) = a' + b' := by
      have := hperm.sum_eq
      simpa using this
    rw [this]

end

/-! ### The refutation -/

/-- Fifteen rows of a feature that says nothing about the label: 2 : 3 in both halves. -/
def uselessRows : List (ℚ × ℚ) :=
  [(0, 0), (0, 0), (0, 1), (0, 1), (0, 1), (1, 0), (1, 0), (1, 0), (1, 0), (1, 1), (1, 1), (1, 1), (1, 1), (1, 1), (1, 1)]

theorem giniR_two_three {rnd : ℚ → ℚ} {sum : List ℚ → ℚ} (h : Nearest 53 rnd) (hs : SumFn rnd sum) {a b : Nat}
    (hab : 3 * a = 2 * b) (hpos : 0 < a) : giniR rnd sum [a, b] = 8646911284551352 * 2 ^ (-54 : ℤ) := by
  have ha : (0 : ℚ) < a := by exact_mod_cast hpos
  have hq : (3 * a : ℚ) = 2 * b := by exact_mod_cast hab
  have e1 : (a : ℚ) / ((a + b : Nat) : ℚ) = 2 / 5 := by
    push_cast
    rw [div_eq_div_iff (by linarith) (by norm_num)]
    linarith
  have e2 : (b : ℚ) / ((a + b : Nat) : ℚ) = 3 / 5 := by
    push_cast
    rw [div_eq_div_iff (by linarith) (by norm_num)]
    linarith
  have r1 : rnd (2 / 5) = ((7205759403792794 : ℤ) : ℚ) * 2 ^ (-54 : ℤ) := h.eq_of_close (by norm_num) (by norm_num) (by norm_num) (by norm_num [abs_lt])
  have r2 : rnd (3 / 5) = ((5404319552844595 : ℤ) : ℚ) * 2 ^ (-53 : ℤ) := h.eq_of_close (by norm_num) (by norm_num) (by norm_num) (by norm_num [abs_lt])
  have r3 : rnd (rnd (2 / 5) * rnd (2 / 5)) = ((5764607523034236 : ℤ) : ℚ) * 2 ^ (-55 : ℤ) := by
    rw [r1]; exact h.eq_of_close (by norm_num) (by norm_num) (by norm_num) (by norm_num [abs_lt])
  have r4 : rnd (rnd (3 / 5) * rnd (3 / 5)) = ((6485183463413514 : ℤ) : ℚ) * 2 ^ (-54 : ℤ) := by
    rw [r2]; exact h.eq_of_close (by norm_num) (by norm_num) (by norm_num) (by norm_num [abs_lt])
  have r5 : rnd (rnd (rnd (2 / 5) * rnd (2 / 5)) + rnd (rnd (3 / 5) * rnd (3 / 5))) = ((4683743612465316 : ℤ) : ℚ) * 2 ^ (-53 : ℤ) := by
    rw [r3, r4]; exact h.eq_of_close (by norm_num) (by norm_num) (by norm_num) (by norm_num [abs_lt])
  have hsum : [a, b].sum = a + b := by simp
  unfold giniR probsR
  rw [hsum]
  simp only [List.map_cons, List.map_nil]
  rw [if_neg (by omega), if_neg (by omega), e1, e2, (hs _ (by simp)).two, r5]
  have := h.eq_of_close (m := 8646911284551352) (e := -54) (x := 1 - ((4683743612465316 : ℤ) : ℚ) * 2 ^ (-53 : ℤ)) (by norm_num) (by norm_num)
    (by norm_num) (by norm_num [abs_lt])
  rw [this]
  norm_num

/-- **C144, refuted**: in double precision, whatever the order of the sums and the rounding of ties, a split on a feature that says
nothing about the label is reported as an improvement by `2^-54`, although the Gini index does not change. -/
theorem C144_refuted {rnd : ℚ → ℚ} {sum : List ℚ → ℚ} (h : Nearest 53 rnd) (hs : SumFn rnd sum) :
    change gini uselessRows 0 = 0 ∧
    pickR [candR rnd sum [0, 1] (uselessRows, 0)] = some (0, -(1 / 2 ^ 54)) := by
  refine ⟨by decide +kernel, ?_⟩
  have hl : countsOf [0, 1] (labelsLe uselessRows 0) = [2, 3] := by decide +kernel
  have hr : countsOf [0, 1] (labelsGt uselessRows 0) = [4, 6] := by decide +kernel
  have w1 : rnd (1 / 3) = ((6004799503160661 : ℤ) : ℚ) * 2 ^ (-54 : ℤ) := h.eq_of_close (by norm_num) (by norm_num) (by norm_num) (by norm_num [abs_lt])
  have w2 : rnd (2 / 3) = ((6004799503160661 : ℤ) : ℚ) * 2 ^ (-53 : ℤ) := h.eq_of_close (by norm_num) (by norm_num) (by norm_num) (by norm_num [abs_lt])
  have A : rnd (rnd (1 / 3) * (8646911284551352 * 2 ^ (-54 : ℤ))) = ((5764607523034234 : ℤ) : ℚ) * 2 ^ (-55 : ℤ) := by
    rw [w1]; exact h.eq_of_close (by norm_num) (by norm_num) (by norm_num) (by norm_num [abs_lt])
  have B : rnd (rnd (2 / 3) * (8646911284551352 * 2 ^ (-54 : ℤ))) = ((5764607523034234 : ℤ) : ℚ) * 2 ^ (-54 : ℤ) := by
    rw [w2]; exact h.eq_of_close (by norm_num) (by norm_num) (by norm_num) (by norm_num [abs_lt])
  have C : rnd (((5764607523034234 : ℤ) : ℚ) * 2 ^ (-55 : ℤ) + ((5764607523034234 : ℤ) : ℚ) * 2 ^ (-54 : ℤ)) =
      ((8646911284551351 : ℤ) : ℚ) * 2 ^ (-54 : ℤ) := h.eq_of_close (by norm_num) (by norm_num) (by norm_num) (by norm_num [abs_lt])
  have D : rnd (((8646911284551351 : ℤ) : ℚ) * 2 ^ (-54 : ℤ) - 8646911284551352 * 2 ^ (-54 : ℤ)) = -(1 / 2 ^ 54) := by
    have : ((8646911284551351 : ℤ) : ℚ) * 2 ^ (-54 : ℤ) - 8646911284551352 * 2 ^ (-54 : ℤ) = -(1 / 2 ^ 54) := by norm_num
    rw [this]
    exact h.exact ⟨-1, -54, by norm_num, by norm_num⟩
  have hv : candR rnd sum [0, 1] (uselessRows, 0) = -(1 / 2 ^ 54) := by
    unfold candR reductionR
    rw [hl, hr]
    have hadd : addRows [2, 3] [4, 6] = [6, 9] := rfl
    have s1 : [2, 3].sum = 5 := rfl
    have s2 : [4, 6].sum = 10 := rfl
    rw [hadd, s1, s2, giniR_two_three h hs (by norm_num) (by norm_num), giniR_two_three h hs (by norm_num) (by norm_num),
      giniR_two_three h hs (by norm_num) (by norm_num)]
    dsimp only
    have d1 : ((5 : Nat) : ℚ) / ((5 + 10 : Nat) : ℚ) = 1 / 3 := by norm_num
    have d2 : ((10 : Nat) : ℚ) / ((5 + 10 : Nat) : ℚ) = 2 / 3 := by norm_num
    rw [d1, d2, A, B, C, D]
  rw [hv]
  have hneg : (-(1 / 2 ^ 54) : ℚ) < 0 := by norm_num
  have hmin : npMin [(-(1 / 2 ^ 54) : ℚ)] = some (-(1 / 2 ^ 54)) := rfl
  unfold pickR
  rw [hmin]
  dsimp only
  rw [if_pos hneg]
  simp

/-- Adding up one after the other, as `np.sum` does with fewer than eight numbers. -/
def sumSeq (rnd : K → K) : List K → K
  | [] => 0
  | [x] => x
  | x :: y :: l => rnd (x + sumSeq rnd (y :: l))

theorem sumSeq_ok (rnd : K → K) : SumFn rnd (sumSeq rnd) := by
  intro l hl
  induction l with
  | nil => exact absurd rfl hl
  | cons x l ih =>
    cases l with
    | nil => exact .one x
    | cons y l => exact .add (.one x) (ih (by simp)) (List.Perm.refl _)

/-- The hypotheses can be met: double precision, sums one after the other, the fifteen rows. -/
example : ∃ (rnd : ℚ → ℚ) (sum : List ℚ → ℚ), Nearest 53 rnd ∧ SumFn rnd sum ∧ ([0, 1] : List ℚ).Nodup ∧ uselessRows ≠ [] ∧
    (∀ s ∈ uselessRows, s.2 ∈ ([0, 1] : List ℚ)) ∧ (giniErr 53 2 : ℚ) ≤ 40 / 2 ^ 53 :=
  ⟨roundTo 53, sumSeq (roundTo 53), nearest_roundTo (by norm_num), sumSeq_ok _, by decide +kernel, by decide +kernel, by decide +kernel,
    (giniErr_le 53 2 (by norm_num)).trans (by norm_num)⟩

/-- A candidate that separates the labels is chosen over one that says nothing, in spite of rounding. -/
example {rnd : ℚ → ℚ} {sum : List ℚ → ℚ} (h : Nearest 53 rnd) (hs : SumFn rnd sum) :
    ∃ m, pickR ([(uselessRows, 0), (uselessRows.map (fun s => (s.2, s.2)), 0)].map (candR rnd sum [0, 1])) = some (1, m) := by
  have hE : (giniErr 53 2 : ℚ) ≤ 40 / 2 ^ 53 := (giniErr_le 53 2 (by norm_num)).trans (by norm_num)
  have hv : change gini (uselessRows.map (fun s => (s.2, s.2))) 0 = -(12 / 25) := by decide +kernel
  have hv0 : change gini uselessRows 0 = 0 := by decide +kernel
  refine (C144_choice_partial h (by norm_num) hs (classes := [0, 1]) (by decide +kernel) ?_).2.2 1 _ rfl ?_ ?_
  · decide +kernel
  · show change gini (uselessRows.map (fun s => (s.2, s.2))) 0 < -(giniErr 53 2)
    rw [hv]
    linarith
  · intro j c' hj hne
    show change gini (uselessRows.map (fun s => (s.2, s.2))) 0 + 2 * (giniErr 53 2) < _
    obtain rfl | hj2 : j = 0 ∨ 2 ≤ j := by omega
    · obtain rfl := Option.some.inj hj
      show _ < change gini uselessRows 0
      rw [hv, hv0]
      linarith
    · rw [List.getElem?_eq_none (by simpa using hj2)] at hj
      cases hj

end FF
