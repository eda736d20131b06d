import Verif.Model.RoundMse
import Verif.Props.RoundGini

/-!
# C145: regression in floating-point arithmetic
-/

namespace FF

open Spec

set_option linter.unusedSectionVars false

variable {K : Type} [Field K] [LinearOrder K] [IsStrictOrderedRing K] [FloorRing K] [NpFun K]

section
variable {p : Nat} {rnd : K → K} {sum : List K → K}

/-- The error of a rounded sum. -/
theorem SumsTo.error_abs (h : Nearest p rnd) (hp : 1 ≤ p) {l : List K} {s : K} (hs : SumsTo rnd l s) :
    |s - l.sum| ≤ ((1 + 1 / 2 ^ p) ^ (l.length - 1) - 1) * (l.map abs).sum := by
  have hu : (0 : K) < 1 / 2 ^ p := by positivity
  have absle : ∀ l : List K, |l.sum| ≤ (l.map abs).sum := by
    intro l
    induction l with
    | nil => simp
    | cons x l ih =>
      rw [List.sum_cons, List.map_cons, List.sum_cons]
      exact (abs_add_le _ _).trans (by linarith)
  have abs0 : ∀ l : List K, 0 ≤ (l.map abs).sum := fun l => (abs_nonneg _).trans (absle l)
  induction hs with
  | one x => simp
  | @add a b l s t ha hb hperm iha ihb =>
    have hla := ha.length_pos
    have hlb := hb.length_pos
    have hlen : l.length = a.length + b.length := by rw [hperm.length_eq, List.length_append]
    have hsum : l.sum = a.sum + b.sum := by rw [hperm.sum_eq, List.sum_append]
    have habs : (l.map abs).sum = (a.map abs).sum + (b.map abs).sum := by
      rw [(hperm.map abs).sum_eq, List.map_append, List.sum_append]
    obtain ⟨M, hM⟩ : ∃ M : K, M = (1 + 1 / 2 ^ p) ^ (l.length - 2) := ⟨_, rfl⟩
    have hmono : ∀ n, n ≤ l.length - 2 → (1 + 1 / 2 ^ p : K) ^ n ≤ M := fun n hn => by
      rw [hM]
      exact pow_le_pow_right₀ (by linarith) hn
    have ea : |s - a.sum| ≤ (M - 1) * (a.map abs).sum :=
      iha.trans (mul_le_mul_of_nonneg_right (by linarith [hmono (a.length - 1) (by omega)]) (abs0 a))
    have eb : |t - b.sum| ≤ (M - 1) * (b.map abs).sum :=
      ihb.trans (mul_le_mul_of_nonneg_right (by linarith [hmono (b.length - 1) (by omega)]) (abs0 b))
    have e : |s + t - l.sum| ≤ (M - 1) * (l.map abs).sum := by
      have : s + t - l.sum = (s - a.sum) + (t - b.sum) := by rw [hsum]; ring
      rw [this, habs, mul_add]
      exact (abs_add_le _ _).trans (add_le_add ea eb)
    refine (h.after hp e (absle l)).trans (le_of_eq ?_)
    have hpow : (1 + 1 / 2 ^ p : K) ^ (l.length - 1) = (1 + 1 / 2 ^ p) * M := by
      rw [hM, ← pow_succ']
      congr 1
      omega
    rw [hpow]
    ring

theorem sum_le_of_le {l : List K} {b : K} (hl : ∀ x ∈ l, x ≤ b) : l.sum ≤ (l.length : K) * b := by
  have := List.sum_le_card_nsmul l b hl
  rwa [nsmul_eq_mul] at this

/-- The rounded mean. -/
theorem meanR_error (h : Nearest p rnd) (hp : 1 ≤ p) (hs : SumFn rnd sum) {ys : List K} (hne : ys ≠ []) {M : K} (hM : ∀ y ∈ ys, |y| ≤ M) :
    |mean ys| ≤ M ∧ |meanR rnd sum ys - mean ys| ≤ ((1 + 1 / 2 ^ p) ^ ys.length - 1) * M := by
  have hn1 : 1 ≤ ys.length := List.length_pos_iff.2 hne
  have hn : (0 : K) < (ys.length : K) := by exact_mod_cast hn1
  have hu : (0 : K) < 1 / 2 ^ p := by positivity
  have e1 := (hs ys hne).error_abs h hp
  have e2 : (ys.map abs).sum ≤ (ys.length : K) * M := by
    have := sum_le_of_le (l := ys.map abs) (b := M) (by
      intro x hx
      obtain ⟨y, hy, rfl⟩ := List.mem_map.1 hx
      exact hM y hy)
    rwa [List.length_map] at this
  have absle : |ys.sum| ≤ (ys.map abs).sum := by
    clear e1 e2 hM hn hn1 hne
    induction ys with
    | nil => simp
    | cons x l ih =>
      rw [List.sum_cons, List.map_cons, List.sum_cons]
      exact (abs_add_le _ _).trans (by linarith)
  have hb : |mean ys| ≤ M := by
    unfold mean
    rw [abs_div, abs_of_pos hn, div_le_iff₀ hn]
    linarith
  have hP1 : (1 : K) ≤ (1 + 1 / 2 ^ p) ^ (ys.length - 1) := one_le_pow₀ (by linarith)
  have e3 : |sum ys / (ys.length : K) - mean ys| ≤ ((1 + 1 / 2 ^ p) ^ (ys.length - 1) - 1) * M := by
    unfold mean
    rw [← sub_div, abs_div, abs_of_pos hn, div_le_iff₀ hn]
    refine e1.trans ((mul_le_mul_of_nonneg_left e2 (by linarith)).trans (le_of_eq ?_))
    ring
  refine ⟨hb, (h.after hp e3 hb).trans (le_of_eq ?_)⟩
  have hpow : (1 + 1 / 2 ^ p : K) ^ ys.length = (1 + 1 / 2 ^ p) * (1 + 1 / 2 ^ p) ^ (ys.length - 1) := by
    rw [← pow_succ']
    congr 1
    omega
  rw [hpow]
  ring

theorem variance_range {ys : List K} {M : K} (hM : ∀ y ∈ ys, |y| ≤ M) : 0 ≤ variance ys ∧ variance ys ≤ 4 * M ^ 2 := by
  refine ⟨variance_nonneg ys, ?_⟩
  by_cases hne : ys = []
  · subst hne
    have : variance ([] : List K) = 0 := by simp [variance, mean]
    rw [this]
    positivity
  · have hn : (0 : K) < (ys.length : K) := by exact_mod_cast List.length_pos_iff.2 hne
    have hb : |mean ys| ≤ M := by
      unfold mean
      rw [abs_div, abs_of_pos hn, div_le_iff₀ hn, abs_le]
      have h1 := sum_le_of_le (l := ys) (b := M) (fun y hy => (abs_le.1 (hM y hy)).2)
      have h2 := sum_le_of_le (l := ys.map (fun y => -y)) (b := M) (by
        intro x hx
        obtain ⟨y, hy, rfl⟩ := List.mem_map.1 hx
        linarith [(abs_le.1 (hM y hy)).1])
      have hneg : ∀ l : List K, (l.map (fun y => -y)).sum = -l.sum := by
        intro l
        induction l with
        | nil => simp
        | cons x l ih => rw [List.map_cons, List.sum_cons, List.sum_cons, ih]; ring
      rw [List.length_map, hneg] at h2
      constructor <;> linarith
    unfold variance
    generalize mean ys = m at hb
    have := sum_le_of_le (l := ys.map (fun y => (y - m) ^ 2)) (b := 4 * M ^ 2) (by
      intro x hx
      obtain ⟨y, hy, rfl⟩ := List.mem_map.1 hx
      have h1 := abs_le.1 (hM y hy)
      have h2 := abs_le.1 hb
      nlinarith [h1.1, h1.2, h2.1, h2.2])
    unfold mean
    rw [List.length_map] at this ⊢
    rw [div_le_iff₀ hn]
    linarith

/-- The rounded variance. -/
theorem varR_error (h : Nearest p rnd) (hp : 1 ≤ p) (hs : SumFn rnd sum) {ys : List K} {M : K} (hM : ∀ y ∈ ys, |y| ≤ M) :
    |varR rnd sum ys - variance ys| ≤ ((1 + 1 / 2 ^ p) ^ (3 * ys.length + 3) - 1) * (4 * M ^ 2) := by
  have hu : (0 : K) < 1 / 2 ^ p := by positivity
  unfold varR
  split_ifs with h0
  · have : ys = [] := List.length_eq_zero_iff.1 h0
    subst this
    have : variance ([] : List K) = 0 := by simp [variance, mean]
    rw [this]
    have hP1 : (1 : K) ≤ (1 + 1 / 2 ^ p) ^ (3 * ([] : List K).length + 3) := one_le_pow₀ (by linarith)
    rw [sub_zero, abs_zero]
    exact mul_nonneg (by linarith) (by positivity)
  · have hne : ys ≠ [] := fun e => h0 (by rw [e]; rfl)
    have hn : (0 : K) < (ys.length : K) := by exact_mod_cast List.length_pos_iff.2 hne
    have hM0 : 0 ≤ M := by
      obtain ⟨y, hy⟩ := List.exists_mem_of_ne_nil ys hne
      exact (abs_nonneg y).trans (hM y hy)
    obtain ⟨hb, em⟩ := meanR_error h hp hs hne hM
    have hv := variance_range hM
    obtain ⟨u, hudef⟩ : ∃ u : K, u = 1 / 2 ^ p := ⟨_, rfl⟩
    obtain ⟨a, ha⟩ : ∃ a : K, a = (1 + u) ^ (ys.length + 1) := ⟨_, rfl⟩
    have ha1 : 1 ≤ a := by rw [ha]; exact one_le_pow₀ (by rw [hudef]; linarith)
    generalize meanR rnd sum ys = m' at em ⊢
    have hlenX : ∀ g : K → K, (ys.map g).length = ys.length := fun g => List.length_map _
    have hsq : ∀ y ∈ ys, |rnd (rnd (y - m') * rnd (y - m')) - (y - mean ys) ^ 2| ≤ ((1 + u) * a ^ 2 - 1) * (4 * M ^ 2) := by
      intro y hy
      have hD : |y - mean ys| ≤ 2 * M := by
        have h1 := abs_sub y (mean ys)
        have h2 := hM y hy
        linarith
      have e1 : |y - m' - (y - mean ys)| ≤ ((1 + u) ^ ys.length - 1) * (2 * M) := by
        have : y - m' - (y - mean ys) = -(m' - mean ys) := by ring
        rw [this, abs_neg]
        have hP1 : (1 : K) ≤ (1 + u) ^ ys.length := one_le_pow₀ (by rw [hudef]; linarith)
        rw [← hudef] at em
        nlinarith
      have e2 : |rnd (y - m') - (y - mean ys)| ≤ (a - 1) * (2 * M) := by
        refine (h.after hp e1 hD).trans (le_of_eq ?_)
        rw [ha, ← hudef]
        ring
      generalize rnd (y - m') = d at e2 ⊢
      generalize y - mean ys = D at hD e2 ⊢
      have e3 : |d * d - D ^ 2| ≤ (a ^ 2 - 1) * (4 * M ^ 2) := by
        have e4 : d * d - D ^ 2 = (d - D) * (d + D) := by ring
        have e5 : |d + D| ≤ (a + 1) * (2 * M) := by
          have : d + D = (d - D) + 2 * D := by ring
          rw [this]
          refine (abs_add_le _ _).trans ?_
          rw [abs_mul, abs_two]
          linarith
        rw [e4, abs_mul]
        calc |d - D| * |d + D| ≤ ((a - 1) * (2 * M)) * ((a + 1) * (2 * M)) :=
              mul_le_mul e2 e5 (abs_nonneg _) (mul_nonneg (by linarith) (by linarith))
          _ = (a ^ 2 - 1) * (4 * M ^ 2) := by ring
      have e6 : |D ^ 2| ≤ 4 * M ^ 2 := by
        rw [abs_pow]
        nlinarith [abs_nonneg D]
      refine (h.after hp e3 e6).trans (le_of_eq ?_)
      rw [← hudef]
      ring
    have hX0 : ∀ x ∈ ys.map (fun y => rnd (rnd (y - m') * rnd (y - m'))), 0 ≤ x := by
      intro x hx
      obtain ⟨y, _, rfl⟩ := List.mem_map.1 hx
      have := h.mono (mul_self_nonneg (rnd (y - m')))
      rwa [h.zero] at this
    have hXsum : |(ys.map (fun y => rnd (rnd (y - m') * rnd (y - m')))).sum - (ys.map (fun y => (y - mean ys) ^ 2)).sum| ≤
        (ys.length : K) * (((1 + u) * a ^ 2 - 1) * (4 * M ^ 2)) := by
      generalize mean ys = m at hsq ⊢
      clear hX0 hlenX ha hv em hb hM0 hn hne h0 hM
      induction ys with
      | nil => simp
      | cons y ys ih =>
        simp only [List.map_cons, List.sum_cons, List.length_cons]
        rw [add_sub_add_comm]
        refine (abs_add_le _ _).trans ?_
        have h1 := hsq y List.mem_cons_self
        have h2 := ih (fun z hz => hsq z (List.mem_cons_of_mem _ hz))
        push_cast
        linarith
    have hXle : (ys.map (fun y => rnd (rnd (y - m') * rnd (y - m')))).sum ≤ (ys.length : K) * ((1 + u) * a ^ 2 * (4 * M ^ 2)) := by
      have h1 := (abs_le.1 hXsum).2
      have h2 : (ys.map (fun y => (y - mean ys) ^ 2)).sum ≤ (ys.length : K) * (4 * M ^ 2) := by
        have := hv.2
        unfold variance at this
        rw [show mean (ys.map (fun y => (y - mean ys) ^ 2)) = (ys.map (fun y => (y - mean ys) ^ 2)).sum / ((ys.map (fun y => (y - mean ys) ^ 2)).length : K) from rfl,
          List.length_map, div_le_iff₀ hn] at this
        linarith
      linarith
    have hsum := (hs (ys.map (fun y => rnd (rnd (y - m') * rnd (y - m')))) (by simpa using hne)).error h hp hX0
    rw [hlenX, ← hudef] at hsum
    have hQ1 : (1 : K) ≤ (1 + u) ^ (ys.length - 1) := one_le_pow₀ (by rw [hudef]; linarith)
    have hpow : (1 + u) ^ (ys.length - 1) * (1 + u) = (1 + u) ^ ys.length := by
      rw [← pow_succ]
      congr 1
      have := List.length_pos_iff.2 hne
      omega
    have e7 : |sum (ys.map (fun y => rnd (rnd (y - m') * rnd (y - m')))) - (ys.map (fun y => (y - mean ys) ^ 2)).sum| ≤
        (ys.length : K) * (((1 + u) ^ ys.length * a ^ 2 - 1) * (4 * M ^ 2)) := by
      refine (abs_sub_le _ (ys.map (fun y => rnd (rnd (y - m') * rnd (y - m')))).sum _).trans ?_
      have h1 := mul_le_mul_of_nonneg_left hXle (by linarith : 0 ≤ (1 + u) ^ (ys.length - 1) - 1)
      rw [← hpow]
      nlinarith
    have hvar : variance ys = (ys.map (fun y => (y - mean ys) ^ 2)).sum / (ys.length : K) := by
      rw [show variance ys = (ys.map (fun y => (y - mean ys) ^ 2)).sum / ((ys.map (fun y => (y - mean ys) ^ 2)).length : K) from rfl,
        List.length_map]
    have e8 : |sum (ys.map (fun y => rnd (rnd (y - m') * rnd (y - m')))) / (ys.length : K) - variance ys| ≤
        ((1 + u) ^ ys.length * a ^ 2 - 1) * (4 * M ^ 2) := by
      rw [hvar, ← sub_div, abs_div, abs_of_pos hn, div_le_iff₀ hn]
      linarith
    have e9 : |variance ys| ≤ 4 * M ^ 2 := by rw [abs_of_nonneg hv.1]; exact hv.2
    refine (h.after hp e8 e9).trans (le_of_eq ?_)
    rw [← hudef, ha]
    ring

/-- The rounded mean squared error. -/
theorem mseR_error (h : Nearest p rnd) (hp : 1 ≤ p) (hs : SumFn rnd sum) {ys : List K} {M : K} (hM : ∀ y ∈ ys, |y| ≤ M) :
    |mseR rnd sum ys - variance ys| ≤ ((1 + 1 / 2 ^ p) ^ (3 * ys.length + 5) - 1) * (4 * M ^ 2) := by
  have hu : (0 : K) < 1 / 2 ^ p := by positivity
  have hv := variance_range hM
  have ev := varR_error h hp hs hM
  unfold mseR
  split_ifs with h1
  · have : variance ys = 0 := by
      obtain h2 | h2 : ys.length = 0 ∨ ys.length = 1 := by omega
      · rw [List.length_eq_zero_iff.1 h2]
        simp [variance, mean]
      · obtain ⟨y, rfl⟩ := List.length_eq_one_iff.1 h2
        simp [variance, mean]
    rw [this, sub_zero, abs_zero]
    have hP1 : (1 : K) ≤ (1 + 1 / 2 ^ p) ^ (3 * ys.length + 5) := one_le_pow₀ (by linarith)
    exact mul_nonneg (by linarith) (by positivity)
  · have hn : (2 : K) ≤ (ys.length : K) := by exact_mod_cast (by omega : 2 ≤ ys.length)
    have hc : 0 < (ys.length : K) * ((ys.length : K) - 1) := mul_pos (by linarith) (by linarith)
    rw [mul_comm ((ys.length : K) - 1) (ys.length : K)]
    generalize (ys.length : K) * ((ys.length : K) - 1) = c at hc ⊢
    generalize varR rnd sum ys = v' at ev ⊢
    generalize variance ys = v at ev hv ⊢
    have e1 : |v' * c - v * c| ≤ ((1 + 1 / 2 ^ p) ^ (3 * ys.length + 3) - 1) * (4 * M ^ 2) * c := by
      rw [← sub_mul, abs_mul, abs_of_pos hc]
      exact mul_le_mul_of_nonneg_right ev hc.le
    have e2 : |v * c| ≤ 4 * M ^ 2 * c := by
      rw [abs_mul, abs_of_pos hc, abs_of_nonneg hv.1]
      exact mul_le_mul_of_nonneg_right hv.2 hc.le
    have e3 := h.after hp e1 e2
    have e4 : |rnd (v' * c) / c - v| ≤ ((1 + 1 / 2 ^ p) ^ (3 * ys.length + 4) - 1) * (4 * M ^ 2) := by
      have : rnd (v' * c) / c - v = (rnd (v' * c) - v * c) / c := by
        rw [sub_div, mul_div_cancel_right₀ _ hc.ne']
      rw [this, abs_div, abs_of_pos hc, div_le_iff₀ hc]
      refine e3.trans (le_of_eq ?_)
      ring
    refine (h.after hp e4 (show |v| ≤ 4 * M ^ 2 by rw [abs_of_nonneg hv.1]; exact hv.2)).trans (le_of_eq ?_)
    ring

/-- One weighted side of the reduction. -/
theorem mse_side_error (h : Nearest p rnd) (hp : 1 ≤ p) {w g g' B Q : K} (hw0 : 0 ≤ w) (hg0 : 0 ≤ g) (hg1 : g ≤ B)
    (he : |g' - g| ≤ (Q - 1) * B) : |rnd (rnd w * g') - w * g| ≤ w * (((1 + 1 / 2 ^ p) ^ 2 * Q - 1) * B) := by
  have hu : (0 : K) < 1 / 2 ^ p := by positivity
  obtain ⟨u, hudef⟩ : ∃ u : K, u = 1 / 2 ^ p := ⟨_, rfl⟩
  have hrel := h.rel hp w
  rw [abs_of_nonneg hw0, ← hudef] at hrel
  have e1 : |rnd w * g' - w * g| ≤ w * (((1 + u) * Q - 1) * B) := by
    have e2 : rnd w * g' - w * g = (rnd w - w) * g' + w * (g' - g) := by ring
    rw [e2]
    refine (abs_add_le _ _).trans ?_
    rw [abs_mul, abs_mul, abs_of_nonneg hw0]
    have h1 : |g'| ≤ Q * B := by
      have := abs_sub_abs_le_abs_sub g' g
      rw [abs_of_nonneg hg0] at this
      linarith
    have h2 : |rnd w - w| * |g'| ≤ u * w * (Q * B) := mul_le_mul hrel h1 (abs_nonneg _) (by rw [hudef]; positivity)
    have h3 : w * |g' - g| ≤ w * ((Q - 1) * B) := mul_le_mul_of_nonneg_left he hw0
    linarith
  have hb : |w * g| ≤ w * B := by
    rw [abs_of_nonneg (mul_nonneg hw0 hg0)]
    exact mul_le_mul_of_nonneg_left hg1 hw0
  refine (h.after hp e1 hb).trans (le_of_eq ?_)
  rw [← hudef]
  ring

/-- Bound of the rounding errors in a reduction of the squared error: `n` targets that are at most `M` in absolute value. -/
def mseErr (p n : Nat) (M : K) : K := 4 * M ^ 2 * giniErr p (3 * n + 1)

/-- How large the bound is. -/
theorem mseErr_le (p n : Nat) (M : K) (hk : 2 * (3 * n + 9) ≤ 2 ^ p) : mseErr p n M ≤ 16 * M ^ 2 * (3 * (n : K) + 9) / 2 ^ p := by
  unfold mseErr
  have h1 := giniErr_le (K := K) p (3 * n + 1) (by omega)
  have h2 := mul_le_mul_of_nonneg_left h1 (by positivity : (0 : K) ≤ 4 * M ^ 2)
  refine h2.trans (le_of_eq ?_)
  push_cast
  ring

/-- **C145** (the error): for every number of rows, the computed reduction of a threshold is within `mseErr` of the true change of the
weighted variance. -/
theorem C145_reduction_partial (h : Nearest p rnd) (hp : 1 ≤ p) (hs : SumFn rnd sum) {S : List (K × K)} (hS : S ≠ []) {M : K}
    (hM : ∀ s ∈ S, |s.2| ≤ M) (t : K) :
    |mseReductionR rnd sum (labelsLe S t) (labelsGt S t) (S.map Prod.snd) - change variance S t| ≤ mseErr p S.length M := by
  have hu : (0 : K) < 1 / 2 ^ p := by positivity
  have hperm : (labelsLe S t ++ labelsGt S t).Perm (S.map Prod.snd) := (labels_perm S t).symm
  have hyA : ∀ y ∈ S.map Prod.snd, |y| ≤ M := by
    intro y hy'
    obtain ⟨s, hs', rfl⟩ := List.mem_map.1 hy'
    exact hM s hs'
  have hyL : ∀ y ∈ labelsLe S t, |y| ≤ M := fun y hy' => hyA y (hperm.mem_iff.1 (List.mem_append_left _ hy'))
  have hyR : ∀ y ∈ labelsGt S t, |y| ≤ M := fun y hy' => hyA y (hperm.mem_iff.1 (List.mem_append_right _ hy'))
  have hlen : (labelsLe S t).length + (labelsGt S t).length = S.length := by
    have := hperm.length_eq
    rwa [List.length_append, List.length_map] at this
  have hSpos : (0 : K) < (S.length : K) := by exact_mod_cast List.length_pos_iff.2 hS
  obtain ⟨B, hB⟩ : ∃ B : K, B = 4 * M ^ 2 := ⟨_, rfl⟩
  have hB0 : 0 ≤ B := by rw [hB]; positivity
  obtain ⟨u, hudef⟩ : ∃ u : K, u = 1 / 2 ^ p := ⟨_, rfl⟩
  obtain ⟨E, hE⟩ : ∃ E : K, E = (1 + u) ^ (3 * S.length + 5) := ⟨_, rfl⟩
  have hE1 : 1 ≤ E := by rw [hE]; exact one_le_pow₀ (by rw [hudef]; linarith)
  have err : ∀ ys : List K, ys.length ≤ S.length → (∀ y ∈ ys, |y| ≤ M) → |mseR rnd sum ys - variance ys| ≤ (E - 1) * B := by
    intro ys hl hys
    refine (mseR_error h hp hs hys).trans ?_
    rw [← hB, ← hudef]
    apply mul_le_mul_of_nonneg_right _ hB0
    have : (1 + u) ^ (3 * ys.length + 5) ≤ E := by
      rw [hE]
      exact pow_le_pow_right₀ (by rw [hudef]; linarith) (by omega)
    linarith
  have eL := err _ (by omega) hyL
  have eR := err _ (by omega) hyR
  have eA := err _ (by rw [List.length_map]) hyA
  obtain ⟨hL0, hL1⟩ := variance_range hyL
  obtain ⟨hR0, hR1⟩ := variance_range hyR
  obtain ⟨hA0, hA1⟩ := variance_range hyA
  rw [← hB] at hL1 hR1 hA1
  unfold mseReductionR change
  rw [hlen]
  dsimp only
  obtain ⟨wl, hwl⟩ : ∃ w : K, w = ((labelsLe S t).length : K) / (S.length : K) := ⟨_, rfl⟩
  obtain ⟨wr, hwr⟩ : ∃ w : K, w = ((labelsGt S t).length : K) / (S.length : K) := ⟨_, rfl⟩
  have hw : wl + wr = 1 := by
    rw [hwl, hwr, ← add_div, ← Nat.cast_add, hlen]
    exact div_self hSpos.ne'
  have hwl0 : 0 ≤ wl := by rw [hwl]; positivity
  have hwr0 : 0 ≤ wr := by rw [hwr]; positivity
  rw [← hwl, ← hwr]
  have sL := mse_side_error h hp hwl0 hL0 hL1 eL
  have sR := mse_side_error h hp hwr0 hR0 hR1 eR
  unfold mseErr giniErr
  rw [show 3 * S.length + 1 + 8 = 3 * S.length + 5 + 4 by omega, pow_add, ← hudef, ← hE, ← hB]
  rw [← hudef] at sL sR hu
  generalize mseR rnd sum (labelsLe S t) = gl at *
  generalize mseR rnd sum (labelsGt S t) = gr at *
  generalize mseR rnd sum (S.map Prod.snd) = ga at *
  generalize variance (labelsLe S t) = IL at *
  generalize variance (labelsGt S t) = IR at *
  generalize variance (S.map Prod.snd) = IA at *
  generalize rnd (rnd wl * gl) = L at *
  generalize rnd (rnd wr * gr) = R at *
  have e1 : |L + R - (wl * IL + wr * IR)| ≤ ((1 + u) ^ 2 * E - 1) * B := by
    have e2 : L + R - (wl * IL + wr * IR) = (L - wl * IL) + (R - wr * IR) := by ring
    rw [e2]
    refine (abs_add_le _ _).trans ((add_le_add sL sR).trans (le_of_eq ?_))
    rw [← add_mul, hw, one_mul]
  have hb0 : 0 ≤ wl * IL + wr * IR := add_nonneg (mul_nonneg hwl0 hL0) (mul_nonneg hwr0 hR0)
  have hb1 : wl * IL + wr * IR ≤ B := by
    have h1 := mul_le_mul_of_nonneg_left hL1 hwl0
    have h2 := mul_le_mul_of_nonneg_left hR1 hwr0
    have h3 : wl * B + wr * B = B := by rw [← add_mul, hw, one_mul]
    linarith
  have e3 := h.after hp e1 (show |wl * IL + wr * IR| ≤ B by rw [abs_of_nonneg hb0]; exact hb1)
  rw [← hudef] at e3
  have e4 : |rnd (L + R) - ga - (wl * IL + wr * IR - IA)| ≤ ((1 + u) ^ 3 * E - 1) * B + (E - 1) * B := by
    have e5 : rnd (L + R) - ga - (wl * IL + wr * IR - IA) = (rnd (L + R) - (wl * IL + wr * IR)) - (ga - IA) := by ring
    rw [e5]
    refine (abs_sub _ _).trans ?_
    have e6 : ((1 + u) ^ 2 * E - 1) * B + u * (B + ((1 + u) ^ 2 * E - 1) * B) = ((1 + u) ^ 3 * E - 1) * B := by ring
    linarith
  have hc : |wl * IL + wr * IR - IA| ≤ B := by rw [abs_le]; constructor <;> linarith
  refine (h.after hp e4 hc).trans ?_
  rw [← hudef]
  have h3 : (1 + u) ^ 3 * E ≤ (1 + u) ^ 4 * E := by
    apply mul_le_mul_of_nonneg_right _ (by linarith)
    exact pow_le_pow_right₀ (by linarith) (by omega)
  have h4 : (1 + u) * E ≤ (1 + u) ^ 4 * E := by
    apply mul_le_mul_of_nonneg_right _ (by linarith)
    calc (1 + u) = (1 + u) ^ 1 := (pow_one _).symm
      _ ≤ (1 + u) ^ 4 := pow_le_pow_right₀ (by linarith) (by omega)
  have e7 : ((1 + u) ^ 3 * E - 1) * B + (E - 1) * B + u * (B + (((1 + u) ^ 3 * E - 1) * B + (E - 1) * B)) =
      ((1 + u) ^ 4 * E + (1 + u) * E - 2 - u) * B := by ring
  rw [e7]
  have h5 : (1 + u) ^ 4 * E + (1 + u) * E - 2 - u ≤ 2 * (E * (1 + u) ^ 4 - 1) := by linarith
  calc ((1 + u) ^ 4 * E + (1 + u) * E - 2 - u) * B ≤ 2 * (E * (1 + u) ^ 4 - 1) * B := mul_le_mul_of_nonneg_right h5 hB0
    _ = B * (2 * (E * (1 + u) ^ 4 - 1)) := by ring

/-- The computed value of a candidate: the samples of a feature (value, target) and a threshold. -/
def mseCandR (rnd : K → K) (sum : List K → K) (c : List (K × K) × K) : K :=
  mseReductionR rnd sum (labelsLe c.1 c.2) (labelsGt c.1 c.2) (c.1.map Prod.snd)

/-- **C145** (the choice): the chosen candidate is a best one up to `2 * mseErr` and loses at most `mseErr`; without a choice no
candidate improves by more than `mseErr`; a candidate that is better than all the others by more than `2 * mseErr` is chosen. Missing
for the full statement: candidates that close to each other or to zero, see `C145_refuted`. -/
theorem C145_choice_partial (h : Nearest p rnd) (hp : 1 ≤ p) (hs : SumFn rnd sum) {cands : List (List (K × K) × K)} {n : Nat} {M : K}
    (hc : ∀ c ∈ cands, c.1 ≠ [] ∧ c.1.length = n ∧ ∀ s ∈ c.1, |s.2| ≤ M) :
    (∀ i m, pickR (cands.map (mseCandR rnd sum)) = some (i, m) → ∃ c, cands[i]? = some c ∧ m = mseCandR rnd sum c ∧
      (∀ c' ∈ cands, change variance c.1 c.2 ≤ change variance c'.1 c'.2 + 2 * mseErr p n M) ∧
      change variance c.1 c.2 < mseErr p n M) ∧
    (pickR (cands.map (mseCandR rnd sum)) = none → ∀ c ∈ cands, -mseErr p n M ≤ change variance c.1 c.2) ∧
    (∀ i c, cands[i]? = some c → change variance c.1 c.2 < -mseErr p n M →
      (∀ (j : Nat) c', cands[j]? = some c' → j ≠ i → change variance c.1 c.2 + 2 * mseErr p n M < change variance c'.1 c'.2) →
      ∃ m, pickR (cands.map (mseCandR rnd sum)) = some (i, m)) := by
  have herr : ∀ c ∈ cands, |mseCandR rnd sum c - change variance c.1 c.2| ≤ mseErr p n M := by
    intro c hc'
    obtain ⟨h1, h2, h3⟩ := hc c hc'
    have := C145_reduction_partial h hp hs h1 h3 c.2
    rw [h2] at this
    exact this
  generalize mseErr p n M = E at herr ⊢
  obtain ⟨h1, h2, h3⟩ := pickR_near (f := mseCandR rnd sum) (g := fun c => change variance c.1 c.2) herr
  exact ⟨h1, h2, h3⟩

/-- **C145** (equal targets): if all targets of the node are the same number `m * 2^e` with `n * |m| < 2^p` (for example a small integer), no
split is reported, and the mean of the targets is exact. Missing for the full statement: other numbers, see `C145_refuted`. -/
theorem C145_equal_partial (h : Nearest p rnd) (hs : SumFn rnd sum) {cands : List (List (K × K) × K)} {n : Nat} {m e : ℤ}
    (hm : (n : ℤ) * |m| < 2 ^ p) (hc : ∀ c ∈ cands, c.1.length = n ∧ ∀ s ∈ c.1, s.2 = m * 2 ^ e) :
    pickR (cands.map (mseCandR rnd sum)) = none ∧
    ∀ ys : List K, ys ≠ [] → ys.length ≤ n → (∀ y ∈ ys, y = m * 2 ^ e) → meanR rnd sum ys = m * 2 ^ e := by
  have he : (0 : K) < 2 ^ e := two_zpow_pos e
  have sumC : ∀ (ys : List K) (c : K), (∀ y ∈ ys, y = c) → ys.sum = (ys.length : K) * c := by
    intro ys c
    induction ys with
    | nil => intro _; simp
    | cons y ys ih =>
      intro hy
      rw [List.sum_cons, ih (fun z hz => hy z (List.mem_cons_of_mem _ hz)), hy y List.mem_cons_self, List.length_cons]
      push_cast
      ring
  have hmean : ∀ ys : List K, ys ≠ [] → ys.length ≤ n → (∀ y ∈ ys, y = m * 2 ^ e) → meanR rnd sum ys = m * 2 ^ e := by
    intro ys hne hl hy
    have hn : (0 : K) < (ys.length : K) := by exact_mod_cast List.length_pos_iff.2 hne
    have hsum := (hs ys hne).exact h (e := e) (fun y hy' => ⟨m, hy y hy'⟩) (by
      rw [sumC (ys.map abs) (|(m : K)| * 2 ^ e) (by
        intro x hx
        obtain ⟨y, hy', rfl⟩ := List.mem_map.1 hx
        rw [hy y hy', abs_mul, abs_of_pos he]), List.length_map, ← mul_assoc]
      apply mul_lt_mul_of_pos_right _ he
      have h1 : ((n : ℤ) : K) * |(m : K)| < 2 ^ p := by exact_mod_cast hm
      have h2 : (ys.length : K) * |(m : K)| ≤ (n : K) * |(m : K)| := mul_le_mul_of_nonneg_right (by exact_mod_cast hl) (abs_nonneg _)
      push_cast at h1
      linarith)
    unfold meanR
    rw [hsum, sumC ys _ hy, mul_div_cancel_left₀ _ hn.ne']
    refine h.exact ⟨m, e, ?_, rfl⟩
    have h1 : (1 : ℤ) ≤ (n : ℤ) := by
      have := List.length_pos_iff.2 hne
      omega
    nlinarith [abs_nonneg m]
  refine ⟨?_, hmean⟩
  have hzero : ∀ ys : List K, ys.length ≤ n → (∀ y ∈ ys, y = m * 2 ^ e) → mseR rnd sum ys = 0 := by
    intro ys hl hy
    unfold mseR
    split_ifs with h1
    · rfl
    · have hne : ys ≠ [] := by
        rintro rfl
        simp at h1
      have hv : varR rnd sum ys = 0 := by
        unfold varR
        rw [if_neg (by omega), hmean ys hne hl hy]
        have hX : ys.map (fun y => rnd (rnd (y - m * 2 ^ e) * rnd (y - m * 2 ^ e))) = ys.map (fun _ => (0 : K)) := by
          refine List.map_congr_left (fun y hy' => ?_)
          rw [hy y hy', sub_self, h.zero, mul_zero, h.zero]
        rw [hX]
        have hsum := (hs (ys.map (fun _ => (0 : K))) (by simpa using hne)).exact h (e := 0) (by
          intro x hx
          obtain ⟨y, _, rfl⟩ := List.mem_map.1 hx
          exact ⟨0, by simp⟩) (by
          rw [sumC _ 0 (by
            intro x hx
            obtain ⟨y, hy', rfl⟩ := List.mem_map.1 hx
            obtain ⟨z, _, rfl⟩ := List.mem_map.1 hy'
            exact abs_zero), mul_zero]
          positivity)
        rw [hsum]
        simp [h.zero]
      rw [hv, zero_mul, h.zero, zero_div, h.zero]
  have hcand : ∀ c ∈ cands, mseCandR rnd sum c = 0 := by
    intro c hc'
    obtain ⟨h1, h2⟩ := hc c hc'
    have hperm : (labelsLe c.1 c.2 ++ labelsGt c.1 c.2).Perm (c.1.map Prod.snd) := (labels_perm c.1 c.2).symm
    have hA : ∀ z ∈ c.1.map Prod.snd, z = m * 2 ^ e := by
      intro z hz
      obtain ⟨s, hs', rfl⟩ := List.mem_map.1 hz
      exact h2 s hs'
    have hlen : (labelsLe c.1 c.2).length + (labelsGt c.1 c.2).length = n := by
      have := hperm.length_eq
      rw [List.length_append, List.length_map] at this
      omega
    unfold mseCandR mseReductionR
    dsimp only
    rw [hzero _ (by omega) (fun z hz => hA z (hperm.mem_iff.1 (List.mem_append_left _ hz))),
      hzero _ (by omega) (fun z hz => hA z (hperm.mem_iff.1 (List.mem_append_right _ hz))), hzero _ (by rw [List.length_map]; omega) hA]
    simp [h.zero]
  unfold pickR
  cases hmin : npMin (cands.map (mseCandR rnd sum)) with
  | none => rfl
  | some v =>
    obtain ⟨c, hc', rfl⟩ := List.mem_map.1 (npMin_mem hmin)
    dsimp only
    rw [if_neg (by rw [hcand c hc']; exact lt_irrefl _)]

/-- Without rounding the computed value is the change of the weighted variance. -/
theorem C145_exact (S : List (K × K)) (t : K) :
    mseReductionR id List.sum (labelsLe S t) (labelsGt S t) (S.map Prod.snd) = change variance S t := by
  have hperm : (labelsLe S t ++ labelsGt S t).Perm (S.map Prod.snd) := (labels_perm S t).symm
  have hlen : (labelsLe S t).length + (labelsGt S t).length = S.length := by
    have := hperm.length_eq
    rwa [List.length_append, List.length_map] at this
  have key : ∀ ys : List K, mseR id List.sum ys = variance ys := by
    intro ys
    unfold mseR
    split_ifs with h1
    · obtain h2 | h2 : ys.length = 0 ∨ ys.length = 1 := by omega
      · rw [List.length_eq_zero_iff.1 h2]
        simp [variance, mean]
      · obtain ⟨y, rfl⟩ := List.length_eq_one_iff.1 h2
        simp [variance, mean]
    · have hn : (2 : K) ≤ (ys.length : K) := by exact_mod_cast (by omega : 2 ≤ ys.length)
      have hc : (ys.length : K) * ((ys.length : K) - 1) ≠ 0 := (mul_pos (by linarith) (by linarith)).ne'
      simp only [id]
      rw [mul_comm ((ys.length : K) - 1) (ys.length : K), mul_div_cancel_right₀ _ hc]
      unfold varR
      rw [if_neg (by omega)]
      have hX : ys.map (fun y => id (id (y - meanR id List.sum ys) * id (y - meanR id List.sum ys))) = ys.map (fun y => (y - mean ys) ^ 2) :=
        List.map_congr_left (fun y _ => (sq (y - mean ys)).symm)
      rw [hX, show variance ys = (ys.map (fun y => (y - mean ys) ^ 2)).sum / ((ys.map (fun y => (y - mean ys) ^ 2)).length : K) from rfl,
        List.length_map]
      rfl
  unfold mseReductionR change
  rw [hlen, key, key, key]
  rfl

/-- A number between two neighbours is rounded to one of them. -/
theorem Nearest.between (h : Nearest p rnd) (hp : 1 ≤ p) {m e : ℤ} (hm : 2 ^ (p - 1) ≤ m) (hm' : m + 1 < 2 ^ p) {x : K}
    (h1 : (m : K) * 2 ^ e ≤ x) (h2 : x ≤ ((m + 1 : ℤ) : K) * 2 ^ e) :
    rnd x = (m : K) * 2 ^ e ∨ rnd x = ((m + 1 : ℤ) : K) * 2 ^ e := by
  have he : (0 : K) < 2 ^ e := two_zpow_pos e
  have hm0 : (0 : ℤ) < 2 ^ (p - 1) := by positivity
  have f1 : FloatNum p ((m : K) * 2 ^ e) := ⟨m, e, by rw [abs_of_pos (by omega)]; omega, rfl⟩
  have f2 : FloatNum p (((m + 1 : ℤ) : K) * 2 ^ e) := ⟨m + 1, e, by rw [abs_of_pos (by omega)]; exact hm', rfl⟩
  have l1 := h.mono h1
  have l2 := h.mono h2
  rw [h.exact f1] at l1
  rw [h.exact f2] at l2
  obtain ⟨k, hk⟩ := (h.float x).multiple (e := e) (by
    have hpow : (2 : K) ^ (e + (p : ℤ) - 1) = 2 ^ (p - 1) * 2 ^ e := by
      rw [← zpow_natCast, ← zpow_add₀ (by norm_num)]
      congr 1
      omega
    rw [hpow]
    refine le_trans ?_ (le_abs_self _)
    refine le_trans (mul_le_mul_of_nonneg_right ?_ he.le) l1
    exact_mod_cast hm)
  rw [hk] at l1 l2 ⊢
  have k1 : m ≤ k := by
    have := le_of_mul_le_mul_right l1 he
    exact_mod_cast this
  have k2 : k ≤ m + 1 := by
    have := le_of_mul_le_mul_right l2 he
    exact_mod_cast this
  obtain rfl | rfl : k = m ∨ k = m + 1 := by omega
  · exact Or.inl rfl
  · exact Or.inr rfl

theorem SumsTo.single {z w : K} (hw : SumsTo rnd [z] w) : w = z := by
  generalize hl : [z] = l at hw
  cases hw with
  | one z' => exact (List.cons.inj hl).1.symm
  | add ha' hb' hp' =>
    subst hl
    have := hp'.length_eq
    rw [List.length_append] at this
    have := ha'.length_pos
    have := hb'.length_pos
    simp only [List.length_cons, List.length_nil] at *
    omega

/-- Three equal numbers can be added in one way only. -/
theorem SumsTo.three {x s : K} (h : SumsTo rnd [x, x, x] s) : s = rnd (rnd (x + x) + x) := by
  generalize hl : [x, x, x] = l at h
  cases h with
  | one z => cases hl
  | @add a b _ s t ha hb hperm =>
    subst hl
    have h1 := ha.length_pos
    have h2 := hb.length_pos
    have h3 := hperm.length_eq
    rw [List.length_append] at h3
    simp only [List.length_cons, List.length_nil] at h3
    have hall : ∀ z ∈ a ++ b, z = x := fun z hz => by
      have := hperm.mem_iff.2 hz
      simpa using this
    have hrep : ∀ (c : List K) (k : Nat), c.length = k → (∀ z ∈ c, z ∈ a ++ b) → c = List.replicate k x := fun c k hk hc =>
      List.eq_replicate_iff.2 ⟨hk, fun z hz => hall z (hc z hz)⟩
    obtain ⟨h4, h5⟩ | ⟨h4, h5⟩ : a.length = 2 ∧ b.length = 1 ∨ a.length = 1 ∧ b.length = 2 := by omega
    · have ea := hrep a 2 h4 (fun z hz => List.mem_append_left _ hz)
      have eb := hrep b 1 h5 (fun z hz => List.mem_append_right _ hz)
      subst ea eb
      rw [SumsTo.two ha, SumsTo.single hb]
    · have ea := hrep a 1 h4 (fun z hz => List.mem_append_left _ hz)
      have eb := hrep b 2 h5 (fun z hz => List.mem_append_right _ hz)
      subst ea eb
      rw [SumsTo.two hb, SumsTo.single ha, add_comm]

end

/-! ### The refutation -/

/-- The double that python prints as `0.1`. -/
def tenth : ℚ := 7205759403792794 / 2 ^ 56

/-- Three rows with the target `0.1`. -/
def tenthRows : List (ℚ × ℚ) := [(0, tenth), (1, tenth), (1, tenth)]

/-- **C145, refuted**: in double precision, whatever the rounding of ties, the mean of three targets `0.1` is not `0.1`; their computed variance is
positive, and a split of the three rows is reported, although their targets are all equal. -/
theorem C145_refuted {rnd : ℚ → ℚ} {sum : List ℚ → ℚ} (h : Nearest 53 rnd) (hs : SumFn rnd sum) :
    rnd (1 / 10) = tenth ∧ change variance tenthRows 0 = 0 ∧ meanR rnd sum [tenth, tenth, tenth] ≠ tenth ∧
    pickR [mseCandR rnd sum (tenthRows, 0)] = some (0, -(1 / 2 ^ 112)) := by
  have ht : rnd (1 / 10) = tenth := by
    have := h.eq_of_close (m := 7205759403792794) (e := -56) (x := 1 / 10) (by norm_num) (by norm_num) (by norm_num) (by norm_num [abs_lt])
    rw [this]
    norm_num [tenth]
  have two : rnd (tenth + tenth) = 7205759403792794 / 2 ^ 55 := by
    have e : tenth + tenth = 7205759403792794 / 2 ^ 55 := by norm_num [tenth]
    rw [e]
    exact h.exact ⟨7205759403792794, -55, by norm_num, by norm_num⟩
  have hmean3 : meanR rnd sum [tenth, tenth, tenth] = tenth - 1 / 2 ^ 56 ∨ meanR rnd sum [tenth, tenth, tenth] = tenth + 1 / 2 ^ 56 := by
    have hsum := (hs [tenth, tenth, tenth] (by simp)).three
    unfold meanR
    rw [hsum, two]
    have hb := h.between (by norm_num) (m := 5404319552844595) (e := -54) (x := 7205759403792794 / 2 ^ 55 + tenth) (by norm_num) (by norm_num)
      (by norm_num [tenth]) (by norm_num [tenth])
    rcases hb with hb | hb
    · left
      rw [hb]
      have := h.eq_of_close (m := 7205759403792793) (e := -56) (x := ((5404319552844595 : ℤ) : ℚ) * 2 ^ (-54 : ℤ) / (([tenth, tenth, tenth] : List ℚ).length : ℚ))
        (by norm_num) (by norm_num) (by norm_num) (by norm_num [abs_lt])
      rw [this]
      norm_num [tenth]
    · right
      rw [hb]
      have := h.eq_of_close (m := 7205759403792795) (e := -56) (x := ((5404319552844595 + 1 : ℤ) : ℚ) * 2 ^ (-54 : ℤ) / (([tenth, tenth, tenth] : List ℚ).length : ℚ))
        (by norm_num) (by norm_num) (by norm_num) (by norm_num [abs_lt])
      rw [this]
      norm_num [tenth]
  refine ⟨ht, by decide +kernel, ?_, ?_⟩
  · rcases hmean3 with e | e <;> rw [e] <;> norm_num
  have hvar3 : varR rnd sum [tenth, tenth, tenth] = 1 / 2 ^ 112 := by
    have hd : rnd (rnd (tenth - meanR rnd sum [tenth, tenth, tenth]) * rnd (tenth - meanR rnd sum [tenth, tenth, tenth])) = 1 / 2 ^ 112 := by
      have fsq : rnd (1 / 2 ^ 112) = (1 / 2 ^ 112 : ℚ) := h.exact ⟨1, -112, by norm_num, by norm_num⟩
      rcases hmean3 with e | e
      · rw [e, show tenth - (tenth - 1 / 2 ^ 56) = 1 / 2 ^ 56 by ring, h.exact (x := 1 / 2 ^ 56) ⟨1, -56, by norm_num, by norm_num⟩]
        rw [show (1 / 2 ^ 56 : ℚ) * (1 / 2 ^ 56) = 1 / 2 ^ 112 by norm_num, fsq]
      · rw [e, show tenth - (tenth + 1 / 2 ^ 56) = -(1 / 2 ^ 56) by ring, h.exact (x := -(1 / 2 ^ 56)) ⟨-1, -56, by norm_num, by norm_num⟩]
        rw [show (-(1 / 2 ^ 56) : ℚ) * -(1 / 2 ^ 56) = 1 / 2 ^ 112 by norm_num, fsq]
    unfold varR
    simp only [List.map_cons, List.map_nil]
    rw [hd, if_neg (by simp), (hs [1 / 2 ^ 112, 1 / 2 ^ 112, 1 / 2 ^ 112] (by simp)).three]
    rw [h.exact (x := (1 / 2 ^ 112 : ℚ) + 1 / 2 ^ 112) ⟨1, -111, by norm_num, by norm_num⟩,
      h.exact (x := (1 / 2 ^ 112 : ℚ) + 1 / 2 ^ 112 + 1 / 2 ^ 112) ⟨3, -112, by norm_num, by norm_num⟩]
    rw [show ((1 / 2 ^ 112 : ℚ) + 1 / 2 ^ 112 + 1 / 2 ^ 112) / (([tenth, tenth, tenth] : List ℚ).length : ℚ) = 1 / 2 ^ 112 by norm_num]
    exact h.exact ⟨1, -112, by norm_num, by norm_num⟩
  have hmse3 : mseR rnd sum [tenth, tenth, tenth] = 1 / 2 ^ 112 := by
    unfold mseR
    rw [if_neg (by simp), hvar3]
    have e : (1 / 2 ^ 112 : ℚ) * ((([tenth, tenth, tenth] : List ℚ).length : ℚ) * ((([tenth, tenth, tenth] : List ℚ).length : ℚ) - 1)) = 6 / 2 ^ 112 := by norm_num
    rw [e, h.exact (x := (6 / 2 ^ 112 : ℚ)) ⟨6, -112, by norm_num, by norm_num⟩]
    have e' : (6 / 2 ^ 112 : ℚ) / (((([tenth, tenth, tenth] : List ℚ).length : ℚ) - 1) * (([tenth, tenth, tenth] : List ℚ).length : ℚ)) = 1 / 2 ^ 112 := by norm_num
    rw [e']
    exact h.exact ⟨1, -112, by norm_num, by norm_num⟩
  have hmse2 : mseR rnd sum [tenth, tenth] = 0 := by
    have hm2 : meanR rnd sum [tenth, tenth] = tenth := by
      unfold meanR
      rw [(hs [tenth, tenth] (by simp)).two, two]
      have e : (7205759403792794 / 2 ^ 55 : ℚ) / (([tenth, tenth] : List ℚ).length : ℚ) = tenth := by norm_num [tenth]
      rw [e, ← ht]
      exact h.exact (h.float _)
    have hv : varR rnd sum [tenth, tenth] = 0 := by
      unfold varR
      simp only [List.map_cons, List.map_nil]
      rw [if_neg (by simp), hm2, sub_self, h.zero, mul_zero, h.zero, (hs [0, 0] (by simp)).two, add_zero, h.zero, zero_div, h.zero]
    unfold mseR
    rw [if_neg (by simp), hv, zero_mul, h.zero, zero_div, h.zero]
  have hmse1 : mseR rnd sum [tenth] = 0 := by
    unfold mseR
    rw [if_pos (by simp)]
  have hv : mseCandR rnd sum (tenthRows, 0) = -(1 / 2 ^ 112) := by
    have hl : labelsLe tenthRows 0 = [tenth] := by decide +kernel
    have hr : labelsGt tenthRows 0 = [tenth, tenth] := by decide +kernel
    have hA : tenthRows.map Prod.snd = [tenth, tenth, tenth] := rfl
    unfold mseCandR mseReductionR
    dsimp only
    rw [hl, hr, hA, hmse1, hmse2, hmse3, mul_zero, mul_zero, h.zero, add_zero, h.zero, zero_sub]
    exact h.exact ⟨-1, -112, by norm_num, by norm_num⟩
  rw [hv]
  have hneg : (-(1 / 2 ^ 112) : ℚ) < 0 := by norm_num
  have hmin : npMin [(-(1 / 2 ^ 112) : ℚ)] = some (-(1 / 2 ^ 112)) := rfl
  unfold pickR
  rw [hmin]
  dsimp only
  rw [if_pos hneg]
  simp

/-- The hypotheses can be met; four rows with the target 3 are not split. -/
example : ∃ (rnd : ℚ → ℚ) (sum : List ℚ → ℚ), Nearest 53 rnd ∧ SumFn rnd sum ∧
    pickR [mseCandR rnd sum ([(0, 3), (1, 3), (1, 3), (2, 3)], 0), mseCandR rnd sum ([(0, 3), (1, 3), (1, 3), (2, 3)], 1)] = none := by
  have hN := nearest_roundTo (K := ℚ) (p := 53) (by norm_num)
  refine ⟨roundTo 53, sumSeq (roundTo 53), hN, sumSeq_ok _, ?_⟩
  exact (C145_equal_partial hN (sumSeq_ok _) (cands := [([(0, 3), (1, 3), (1, 3), (2, 3)], 0), ([(0, 3), (1, 3), (1, 3), (2, 3)], 1)])
    (n := 4) (m := 3) (e := 0) (by norm_num) (by decide +kernel)).1

/-- A split that separates the targets 0 and 1 is chosen over one that does not, in spite of rounding. -/
example {rnd : ℚ → ℚ} {sum : List ℚ → ℚ} (h : Nearest 53 rnd) (hs : SumFn rnd sum) :
    ∃ m, pickR ([([(0, 0), (1, 0), (0, 1), (1, 1)], 0), ([(0, 0), (0, 0), (1, 1), (1, 1)], 0)].map (mseCandR rnd sum)) = some (1, m) := by
  have hE : (mseErr 53 4 1 : ℚ) ≤ 336 / 2 ^ 53 := (mseErr_le 53 4 1 (by norm_num)).trans (by norm_num)
  have hv : change variance ([(0, 0), (0, 0), (1, 1), (1, 1)] : List (ℚ × ℚ)) 0 = -(1 / 4) := by decide +kernel
  have hv0 : change variance ([(0, 0), (1, 0), (0, 1), (1, 1)] : List (ℚ × ℚ)) 0 = 0 := by decide +kernel
  refine (C145_choice_partial h (by norm_num) hs (n := 4) (M := 1) ?_).2.2 1 _ rfl ?_ ?_
  · decide +kernel
  · show change variance ([(0, 0), (0, 0), (1, 1), (1, 1)] : List (ℚ × ℚ)) 0 < -(mseErr 53 4 1)
    rw [hv]
    linarith
  · intro j c' hj hne
    show change variance ([(0, 0), (0, 0), (1, 1), (1, 1)] : List (ℚ × ℚ)) 0 + 2 * (mseErr 53 4 1) < _
    obtain rfl | hj2 : j = 0 ∨ 2 ≤ j := by omega
    · obtain rfl := Option.some.inj hj
      show _ < change variance ([(0, 0), (1, 0), (0, 1), (1, 1)] : List (ℚ × ℚ)) 0
      rw [hv, hv0]
      linarith
    · rw [List.getElem?_eq_none (by simpa using hj2)] at hj
      cases hj

end FF
