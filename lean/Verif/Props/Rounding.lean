import Verif.Model.Rounding
import Verif.Proofs.Rounding
import Verif.Props.Histogram
import Verif.Model.Criteria

/-!
# Property C113: LINEAR bins in floating-point arithmetic
-/

namespace FF

open Spec

set_option linter.unusedSectionVars false

variable {K : Type} [Field K] [LinearOrder K] [IsStrictOrderedRing K] [FloorRing K] {G : Type} {p : Nat} {rnd : K → K}

/-! ### The rounded lookup -/

theorem linearBinR_le_iff (rnd : K → K) (lo hi : K) {n : Nat} (hn : 2 ≤ n) (v : K) {b : Nat} (hb : b < n) :
    linearBinR rnd lo hi n v ≤ b ↔ rnd (rnd (v - lo) / binWidthR rnd lo hi n) ≤ b := by
  unfold linearBinR
  rw [if_neg (by omega)]
  simp only []
  rw [show (rnd (rnd (v - lo) / binWidthR rnd lo hi n) ≤ (b : K)) ↔ ⌈rnd (rnd (v - lo) / binWidthR rnd lo hi n)⌉ ≤ (b : ℤ) by
    rw [Int.ceil_le]; norm_cast]
  split_ifs <;> omega

theorem Nearest.bounds (h : Nearest p rnd) (hp : 1 ≤ p) {x : K} (hx : 0 ≤ x) :
    (1 - 1 / 2 ^ p) * x ≤ rnd x ∧ rnd x ≤ (1 + 1 / 2 ^ p) * x := by
  have := h.rel hp x
  rw [abs_of_nonneg hx, abs_le] at this
  constructor <;> linarith [this.1, this.2]

theorem unit_bounds (hp : 1 ≤ p) : (0 : K) < 1 / 2 ^ p ∧ (1 : K) / 2 ^ p ≤ 1 / 2 := by
  have h2 : (2 : K) ≤ 2 ^ p := by
    calc (2 : K) = 2 ^ 1 := by norm_num
      _ ≤ 2 ^ p := pow_le_pow_right₀ (by norm_num) hp
  exact ⟨by positivity, one_div_le_one_div_of_le (by norm_num) h2⟩

theorem width_bounds (h : Nearest p rnd) (hp : 1 ≤ p) {lo hi : K} (hlt : lo < hi) {n : Nat} (hn : 2 ≤ n) :
    (1 - 1 / 2 ^ p) ^ 2 * ((hi - lo) / ((n : K) - 1)) ≤ binWidthR rnd lo hi n ∧
    binWidthR rnd lo hi n ≤ (1 + 1 / 2 ^ p) ^ 2 * ((hi - lo) / ((n : K) - 1)) ∧ 0 < binWidthR rnd lo hi n := by
  obtain ⟨hu0, hu1⟩ := unit_bounds (K := K) hp
  have hk : (0 : K) < (n : K) - 1 := by
    have : (2 : K) ≤ n := by exact_mod_cast hn
    linarith
  obtain ⟨a1, a2⟩ := h.bounds hp (sub_pos.2 hlt).le
  have hd : 0 ≤ rnd (hi - lo) := le_trans (mul_nonneg (by linarith) (sub_pos.2 hlt).le) a1
  obtain ⟨b1, b2⟩ := h.bounds hp (div_nonneg hd hk.le)
  have e1 : (1 - 1 / 2 ^ p) ^ 2 * ((hi - lo) / ((n : K) - 1)) ≤ binWidthR rnd lo hi n := by
    refine le_trans ?_ b1
    rw [pow_two, mul_assoc]
    apply mul_le_mul_of_nonneg_left _ (by linarith)
    rw [← mul_div_assoc]
    exact div_le_div_of_nonneg_right a1 hk.le
  refine ⟨e1, ?_, lt_of_lt_of_le ?_ e1⟩
  · refine le_trans b2 ?_
    rw [pow_two, mul_assoc]
    apply mul_le_mul_of_nonneg_left _ (by linarith)
    rw [← mul_div_assoc]
    exact div_le_div_of_nonneg_right a2 hk.le
  · have : (0 : K) < 1 - 1 / 2 ^ p := by linarith
    have := div_pos (sub_pos.2 hlt) hk
    positivity

/-- The factor between the exact and the computed position of a value. -/
def slack (p : Nat) : K := ((1 + 1 / 2 ^ p) / (1 - 1 / 2 ^ p)) ^ 2

theorem slack_pos (hp : 1 ≤ p) : (0 : K) < slack p := by
  obtain ⟨hu0, hu1⟩ := unit_bounds (K := K) hp
  have h1 : (0 : K) < 1 - 1 / 2 ^ p := by linarith
  have h2 : (0 : K) < 1 + 1 / 2 ^ p := by linarith
  unfold slack
  positivity

theorem left_of (h : Nearest p rnd) (hp : 1 ≤ p) {lo hi : K} (hlt : lo < hi) {n : Nat} (hn : 2 ≤ n) {v : K} {b : Nat}
    (hb : b < n) (hv : (v - lo) * slack p ≤ b * ((hi - lo) / ((n : K) - 1))) : linearBinR rnd lo hi n v ≤ b := by
  obtain ⟨hu0, hu1⟩ := unit_bounds (K := K) hp
  obtain ⟨w1, w2, w0⟩ := width_bounds h hp hlt hn
  have hk : (0 : K) < (n : K) - 1 := by
    have : (2 : K) ≤ n := by exact_mod_cast hn
    linarith
  have hW := div_pos (sub_pos.2 hlt) hk
  rw [linearBinR_le_iff rnd lo hi hn v hb]
  rcases le_or_gt v lo with hle | hgt
  · have h1 : rnd (v - lo) ≤ 0 := by rw [← h.zero]; exact h.mono (by linarith)
    have h2 : rnd (rnd (v - lo) / binWidthR rnd lo hi n) ≤ 0 := by
      rw [← h.zero]
      apply h.mono
      exact div_nonpos_of_nonpos_of_nonneg (h.zero ▸ h1) w0.le
    exact h2.trans (by positivity)
  · have hA : 0 < v - lo := sub_pos.2 hgt
    obtain ⟨a1, a2⟩ := h.bounds hp hA.le
    have ha : 0 ≤ rnd (v - lo) := le_trans (mul_nonneg (by linarith) hA.le) a1
    obtain ⟨q1, q2⟩ := h.bounds hp (div_nonneg ha w0.le)
    refine q2.trans ?_
    rw [← mul_div_assoc, div_le_iff₀ w0]
    have h1u : (0 : K) < 1 - 1 / 2 ^ p := by linarith
    have key : (1 + 1 / 2 ^ p) ^ 2 * (v - lo) ≤ b * ((1 - 1 / 2 ^ p) ^ 2 * ((hi - lo) / ((n : K) - 1))) := by
      unfold slack at hv
      rw [div_pow, ← mul_div_assoc, div_le_iff₀ (by positivity)] at hv
      linarith
    calc (1 + 1 / 2 ^ p) * rnd (v - lo) ≤ (1 + 1 / 2 ^ p) * ((1 + 1 / 2 ^ p) * (v - lo)) :=
          mul_le_mul_of_nonneg_left a2 (by linarith)
      _ = (1 + 1 / 2 ^ p) ^ 2 * (v - lo) := by ring
      _ ≤ b * ((1 - 1 / 2 ^ p) ^ 2 * ((hi - lo) / ((n : K) - 1))) := key
      _ ≤ b * binWidthR rnd lo hi n := mul_le_mul_of_nonneg_left w1 (by positivity)

theorem right_of (h : Nearest p rnd) (hp : 1 ≤ p) {lo hi : K} (hlt : lo < hi) {n : Nat} (hn : 2 ≤ n) {v : K} {b : Nat}
    (hb : b < n) (hv : b * ((hi - lo) / ((n : K) - 1)) * slack p < v - lo) : b < linearBinR rnd lo hi n v := by
  obtain ⟨hu0, hu1⟩ := unit_bounds (K := K) hp
  obtain ⟨w1, w2, w0⟩ := width_bounds h hp hlt hn
  have hk : (0 : K) < (n : K) - 1 := by
    have : (2 : K) ≤ n := by exact_mod_cast hn
    linarith
  have hW := div_pos (sub_pos.2 hlt) hk
  rw [← not_le, linearBinR_le_iff rnd lo hi hn v hb, not_le]
  have hA : 0 < v - lo := lt_of_le_of_lt (by have := slack_pos (K := K) hp; positivity) hv
  obtain ⟨a1, a2⟩ := h.bounds hp hA.le
  have ha : 0 ≤ rnd (v - lo) := le_trans (mul_nonneg (by linarith) hA.le) a1
  obtain ⟨q1, q2⟩ := h.bounds hp (div_nonneg ha w0.le)
  refine lt_of_lt_of_le ?_ q1
  rw [← mul_div_assoc, lt_div_iff₀ w0]
  have h1u : (0 : K) < 1 - 1 / 2 ^ p := by linarith
  have key : b * ((1 + 1 / 2 ^ p) ^ 2 * ((hi - lo) / ((n : K) - 1))) < (1 - 1 / 2 ^ p) ^ 2 * (v - lo) := by
    unfold slack at hv
    rw [div_pow, ← mul_div_assoc, div_lt_iff₀ (by positivity)] at hv
    linarith
  calc b * binWidthR rnd lo hi n ≤ b * ((1 + 1 / 2 ^ p) ^ 2 * ((hi - lo) / ((n : K) - 1))) :=
        mul_le_mul_of_nonneg_left w2 (by positivity)
    _ < (1 - 1 / 2 ^ p) ^ 2 * (v - lo) := key
    _ = (1 - 1 / 2 ^ p) * ((1 - 1 / 2 ^ p) * (v - lo)) := by ring
    _ ≤ (1 - 1 / 2 ^ p) * rnd (v - lo) := mul_le_mul_of_nonneg_left a1 h1u.le

/-- The computed edges are close to the exact ones. -/
theorem edge_close (h : Nearest p rnd) (hp : 1 ≤ p) {lo hi : K} (hlt : lo < hi) {n : Nat} (hn : 2 ≤ n) {b : Nat} (hb : b < n)
    {e : K} (he : (linspaceR rnd lo hi n)[b]? = some e) :
    |e - (lo + b * ((hi - lo) / ((n : K) - 1)))| ≤
      ((1 + 1 / 2 ^ p) ^ 4 - 1) * (b * ((hi - lo) / ((n : K) - 1))) + 1 / 2 ^ p * |lo| := by
  obtain ⟨hu0, hu1⟩ := unit_bounds (K := K) hp
  obtain ⟨w1, w2, w0⟩ := width_bounds h hp hlt hn
  have hk : (0 : K) < (n : K) - 1 := by
    have : (2 : K) ≤ n := by exact_mod_cast hn
    linarith
  have hW := div_pos (sub_pos.2 hlt) hk
  set u : K := 1 / 2 ^ p with hu
  set W : K := (hi - lo) / ((n : K) - 1) with hWdef
  have ht : 0 ≤ (b : K) * W := by positivity
  have h4 : 0 ≤ (1 + u) ^ 4 - 1 := by
    have : 1 ≤ (1 + u) ^ 4 := one_le_pow₀ (by linarith)
    linarith
  unfold linspaceR at he
  rw [if_neg (by omega), List.getElem?_map, List.getElem?_range hb] at he
  simp only [Option.map_some, Option.some.injEq] at he
  split_ifs at he with hlast
  · have hbk : (b : K) = (n : K) - 1 := by
      rw [← hlast]; push_cast; ring
    have : lo + b * W = hi := by
      rw [hbk, hWdef, mul_div_cancel₀ _ hk.ne']; ring
    rw [this, ← he, sub_self, abs_zero]
    positivity
  · obtain ⟨s1, s2⟩ := h.bounds hp (x := (b : K) * binWidthR rnd lo hi n) (by positivity)
    rw [← hu] at s1 s2
    have hs2 : rnd ((b : K) * binWidthR rnd lo hi n) ≤ (1 + u) ^ 3 * (b * W) := by
      refine s2.trans ?_
      have : (b : K) * binWidthR rnd lo hi n ≤ b * ((1 + u) ^ 2 * W) := mul_le_mul_of_nonneg_left w2 (by positivity)
      calc (1 + u) * ((b : K) * binWidthR rnd lo hi n) ≤ (1 + u) * (b * ((1 + u) ^ 2 * W)) :=
            mul_le_mul_of_nonneg_left this (by linarith)
        _ = _ := by ring
    have hs1 : (1 - u) ^ 3 * (b * W) ≤ rnd ((b : K) * binWidthR rnd lo hi n) := by
      refine le_trans ?_ s1
      have : (b : K) * ((1 - u) ^ 2 * W) ≤ b * binWidthR rnd lo hi n := mul_le_mul_of_nonneg_left w1 (by positivity)
      calc (1 - u) ^ 3 * (b * W) = (1 - u) * (b * ((1 - u) ^ 2 * W)) := by ring
        _ ≤ _ := mul_le_mul_of_nonneg_left this (by linarith)
    have hs : |rnd ((b : K) * binWidthR rnd lo hi n) - b * W| ≤ ((1 + u) ^ 3 - 1) * (b * W) := by
      rw [abs_le]
      constructor
      · have : (2 - (1 + u) ^ 3) ≤ (1 - u) ^ 3 := by nlinarith
        have := mul_le_mul_of_nonneg_right this ht
        linarith
      · linarith
    have hr := h.rel hp (rnd ((b : K) * binWidthR rnd lo hi n) + lo)
    rw [he, ← hu] at hr
    have h0 : 0 ≤ rnd ((b : K) * binWidthR rnd lo hi n) := le_trans (by have : 0 ≤ 1 - u := by linarith
                                                                        positivity) hs1
    have habs : |rnd ((b : K) * binWidthR rnd lo hi n) + lo| ≤ (1 + u) ^ 3 * (b * W) + |lo| := by
      refine (abs_add_le _ _).trans ?_
      rw [abs_of_nonneg h0]
      linarith
    have e1 : e - (lo + b * W) = (e - (rnd ((b : K) * binWidthR rnd lo hi n) + lo)) +
        (rnd ((b : K) * binWidthR rnd lo hi n) - b * W) := by ring
    rw [e1]
    refine (abs_add_le _ _).trans ?_
    have := hr.trans (mul_le_mul_of_nonneg_left habs hu0.le)
    calc _ ≤ u * ((1 + u) ^ 3 * (b * W) + |lo|) + ((1 + u) ^ 3 - 1) * (b * W) := add_le_add this hs
      _ = _ := by ring

theorem slack_inv {t x s : K} (ht : 0 ≤ t) (hs : 0 < s) (h : t < x * s) : t - (s - 1) * t ≤ x := by
  have h5 : (t - (s - 1) * t) * s = t - t * (s - 1) ^ 2 := by ring
  have h6 : 0 ≤ t * (s - 1) ^ 2 := mul_nonneg ht (sq_nonneg _)
  exact le_of_mul_le_mul_right (by linarith) hs

/-! ### C113 -/

/-- C113, the part that holds. Let every operation of `linear_bin` and `get_bin` be rounded to nearest with `p ≥ 4` significant
bits. Then the lookup is monotone, the minimum lands in the first bin, and a value can be counted on another side of an edge
than the comparison with the edge says only if its distance to the edge is at most `2^-p * (9 * (hi - lo) + |lo|)`. Missing
for the full statement: values that are this close to an edge (see `C113_refuted`). -/
theorem C113_linear_lookup_partial (h : Nearest p rnd) (hp : 4 ≤ p) (lo hi : K) (hlt : lo < hi) (n : Nat) (hn : 2 ≤ n) :
    (∀ v w, v ≤ w → linearBinR rnd lo hi n v ≤ linearBinR rnd lo hi n w) ∧ linearBinR rnd lo hi n lo = 0 ∧
    (linspaceR rnd lo hi n).length = n ∧
    ∀ (v e : K) (b : Nat), (linspaceR rnd lo hi n)[b]? = some e → ¬ (linearBinR rnd lo hi n v ≤ b ↔ v ≤ e) →
      |v - e| ≤ 1 / 2 ^ p * (9 * (hi - lo) + |lo|) := by
  have hp1 : 1 ≤ p := by omega
  have hlen : (linspaceR rnd lo hi n).length = n := by
    unfold linspaceR
    rw [if_neg (by omega)]
    simp
  obtain ⟨w1, w2, w0⟩ := width_bounds h hp1 hlt hn
  have hmono : ∀ v w, v ≤ w → linearBinR rnd lo hi n v ≤ linearBinR rnd lo hi n w := by
    intro v w hvw
    have hq : rnd (rnd (v - lo) / binWidthR rnd lo hi n) ≤ rnd (rnd (w - lo) / binWidthR rnd lo hi n) :=
      h.mono (div_le_div_of_nonneg_right (h.mono (by linarith)) w0.le)
    have hc := Int.ceil_le_ceil hq
    have h1 : ¬ n = 1 := by omega
    unfold linearBinR
    simp only [if_neg h1]
    generalize ⌈rnd (rnd (v - lo) / binWidthR rnd lo hi n)⌉ = x at hc
    generalize ⌈rnd (rnd (w - lo) / binWidthR rnd lo hi n)⌉ = y at hc
    by_cases hx : x < 0 <;> by_cases hy : y < 0 <;> simp only [hx, hy, if_true, if_false] <;> split_ifs <;> omega
  refine ⟨hmono, ?_, hlen, ?_⟩
  · unfold linearBinR
    rw [if_neg (by omega), sub_self, h.zero, zero_div, h.zero]
    simp
  · intro v e b he hbad
    have hb : b < n := by
      have := (List.getElem?_eq_some_iff.1 he).1
      omega
    have hk : (0 : K) < (n : K) - 1 := by
      have : (2 : K) ≤ n := by exact_mod_cast hn
      linarith
    have hW := div_pos (sub_pos.2 hlt) hk
    have hec := edge_close h hp1 hlt hn hb he
    set u : K := 1 / 2 ^ p with hu
    have hu0 : 0 < u := by rw [hu]; positivity
    have hu1 : u ≤ 1 / 16 := by
      rw [hu]
      apply one_div_le_one_div_of_le (by norm_num)
      calc (16 : K) = 2 ^ 4 := by norm_num
        _ ≤ 2 ^ p := pow_le_pow_right₀ (by norm_num) hp
    set t : K := b * ((hi - lo) / ((n : K) - 1)) with htdef
    have ht0 : 0 ≤ t := by rw [htdef]; positivity
    have htD : t ≤ hi - lo := by
      rw [htdef]
      have : (b : K) ≤ (n : K) - 1 := by
        have : (b : K) + 1 ≤ n := by exact_mod_cast hb
        linarith
      calc (b : K) * ((hi - lo) / ((n : K) - 1)) ≤ ((n : K) - 1) * ((hi - lo) / ((n : K) - 1)) :=
            mul_le_mul_of_nonneg_right this hW.le
        _ = hi - lo := mul_div_cancel₀ _ hk.ne'
    have hτ : slack p - 1 ≤ (9 / 2) * u + u / 10 ∧ 1 ≤ slack (K := K) p := by
      have h1u : 0 < 1 - u := by linarith
      unfold slack
      rw [← hu, div_pow]
      constructor
      · rw [sub_le_iff_le_add, div_le_iff₀ (by positivity)]
        nlinarith [mul_pos hu0 hu0, mul_nonneg hu0.le (by linarith : (0 : K) ≤ 1 / 16 - u), mul_pos (mul_pos hu0 hu0) hu0]
      · rw [le_div_iff₀ (by positivity)]
        nlinarith
    have h4 : (1 + u) ^ 4 - 1 ≤ (9 / 2) * u - u / 10 := by
      nlinarith [mul_pos hu0 hu0, mul_nonneg hu0.le (by linarith : (0 : K) ≤ 1 / 16 - u), mul_pos (mul_pos hu0 hu0) hu0,
        mul_nonneg (mul_pos hu0 hu0).le (by linarith : (0 : K) ≤ 1 / 16 - u),
        mul_nonneg (mul_pos (mul_pos hu0 hu0) hu0).le (by linarith : (0 : K) ≤ 1 / 16 - u)]
    have hsum : (slack p - 1) * t + ((1 + u) ^ 4 - 1) * t ≤ u * (9 * (hi - lo)) := by
      have := mul_le_mul_of_nonneg_right hτ.1 ht0
      have := mul_le_mul_of_nonneg_right h4 ht0
      have := mul_le_mul_of_nonneg_left htD (by positivity : (0 : K) ≤ 9 * u)
      nlinarith
    rw [abs_le] at hec
    rw [abs_le]
    rw [mul_add]
    by_cases hle : linearBinR rnd lo hi n v ≤ b
    · have hve : e < v := by
        by_contra hc
        exact hbad ⟨fun _ => not_lt.1 hc, fun _ => hle⟩
      have hv : v - lo ≤ t * slack p := by
        by_contra hc
        exact absurd (right_of h hp1 hlt hn hb (not_le.1 hc)) (by omega)
      have h0 := abs_nonneg lo
      constructor
      · have : 0 ≤ u * |lo| := by positivity
        have : 0 ≤ u * (9 * (hi - lo)) := by have := sub_pos.2 hlt; positivity
        linarith
      · have hA : t * slack p = t + (slack p - 1) * t := by ring
        linarith [hec.1]
    · have hve : v ≤ e := by
        by_contra hc
        exact hbad ⟨fun h' => absurd h' hle, fun h' => absurd h' hc⟩
      have hv : t < (v - lo) * slack p := by
        by_contra hc
        exact hle (left_of h hp1 hlt hn hb (not_lt.1 hc))
      have hv' := slack_inv ht0 (slack_pos (K := K) hp1) hv
      have h0 := abs_nonneg lo
      constructor
      · linarith [hec.2]
      · have : 0 ≤ u * |lo| := by positivity
        have : 0 ≤ u * (9 * (hi - lo)) := by have := sub_pos.2 hlt; positivity
        linarith

/-- Rounding to nearest exists for every precision. -/
example : Nearest 53 (roundTo (K := ℚ) 53) ∧ Nearest 4 (roundTo (K := K) 4) :=
  ⟨nearest_roundTo (by norm_num), nearest_roundTo (by norm_num)⟩

/-- C113. Without rounding these are the edges and the lookup of the rest of the model (see `C05_linear_lookup`). -/
theorem C113_exact (h : Hist K) (edges : List K) (v : K) (hlin : h.binType = .linear) (hn : 2 ≤ h.numBins) :
    linspaceR id h.minBin h.maxBin h.numBins = linspace h.minBin h.maxBin h.numBins ∧
    linearBinR id h.minBin h.maxBin h.numBins v = h.getBin edges v := by
  have h1 : ¬ h.numBins = 1 := by omega
  have hk : ((h.numBins : K) - 1) ≠ 0 := by
    have : (2 : K) ≤ h.numBins := by exact_mod_cast hn
    linarith
  constructor
  · unfold linspaceR linspace
    rw [if_neg h1, if_neg h1]
    apply List.map_congr_left
    intro i hi
    split_ifs with hl
    · have : (i : K) = (h.numBins : K) - 1 := by rw [← hl]; push_cast; ring
      rw [this, mul_div_cancel₀ _ hk]
      ring
    · simp only [id, binWidthR]
      ring
  · unfold linearBinR Hist.getBin
    rw [if_neg h1, if_pos hlin, if_neg h1]
    rfl

theorem floatNum_of {p : Nat} {x : ℚ} (m e : ℤ) (hm : |m| < 2 ^ p) (hx : x = m * 2 ^ e) : FloatNum p x := ⟨m, e, hm, hx⟩

/-- C113 is false in double precision. With the default 11 bins on `[0, 3]`, the number `2.1` (the double nearest to it) equals the
edge number 7, but it is counted as larger than this edge. -/
theorem C113_refuted (rnd : ℚ → ℚ) (h : Nearest 53 rnd) :
    (linspaceR rnd 0 3 11)[7]? = some (4728779608739021 / 2 ^ 51) ∧
    linearBinR rnd 0 3 11 (4728779608739021 / 2 ^ 51) = 8 := by
  have hD : rnd (3 - 0) = 3 := by
    rw [sub_zero]
    exact h.exact (floatNum_of 3 0 (by norm_num) (by norm_num))
  have hw : binWidthR rnd 0 3 11 = 5404319552844595 / 2 ^ 54 := by
    unfold binWidthR
    rw [hD, h.eq_of_close (m := 5404319552844595) (e := -54) (by norm_num) (by norm_num) (by norm_num)
      (by rw [abs_lt]; norm_num)]
    norm_num
  constructor
  · unfold linspaceR
    rw [if_neg (by norm_num), List.getElem?_map, List.getElem?_range (by norm_num)]
    simp only [Option.map_some, Option.some.injEq]
    rw [if_neg (by norm_num), hw, add_zero]
    rw [h.eq_of_close (m := 4728779608739021) (e := -51) (x := ((7 : ℕ) : ℚ) * (5404319552844595 / 2 ^ 54)) (by norm_num)
      (by norm_num) (by norm_num) (by rw [abs_lt]; norm_num)]
    rw [h.exact (floatNum_of 4728779608739021 (-51) (by norm_num) (by norm_num))]
    norm_num
  · have hv : rnd (4728779608739021 / 2 ^ 51 - 0) = 4728779608739021 / 2 ^ 51 := by
      rw [sub_zero]
      exact h.exact (floatNum_of 4728779608739021 (-51) (by norm_num) (by norm_num))
    unfold linearBinR
    rw [if_neg (by norm_num), hv, hw]
    rw [h.eq_of_close (m := 7881299347898369) (e := -50) (by norm_num) (by norm_num) (by norm_num)
      (by rw [abs_lt]; norm_num)]
    have : ⌈((7881299347898369 : ℤ) : ℚ) * 2 ^ (-50 : ℤ)⌉ = 8 := by
      rw [Int.ceil_eq_iff]
      norm_num
    simp only [this]
    norm_num [Int.toNat]

/-- C113 is false in double precision even for the largest value. With 12 bins on `[0, 0.09]` the maximum is counted as larger than
the last edge, which is the maximum itself. Of the three rows with values `0`, `0.089` and `0.09` the histogram then believes
that the last edge separates the third one. If this row is of another class than the first two, the last edge has the best
reduction of all, although every row is on its left: `solve_exactly` proposes a split that puts all rows on one side, and
`Node.split` raises. -/
theorem C113_refuted_max (rnd : ℚ → ℚ) (h : Nearest 53 rnd) :
    (linspaceR rnd 0 (6485183463413514 / 2 ^ 56) 12)[11]? = some (6485183463413514 / 2 ^ 56) ∧
    linearBinR rnd 0 (6485183463413514 / 2 ^ 56) 12 (6485183463413514 / 2 ^ 56) = 12 ∧
    tablesR rnd 0 (6485183463413514 / 2 ^ 56) 12 2 [0, 6413125869375586 / 2 ^ 56, 6485183463413514 / 2 ^ 56] [0, 0, 1] =
      (List.replicate 11 [1, 0] ++ [[2, 0]], List.replicate 11 [1, 1] ++ [[0, 1]]) ∧
    (clsReductions (K := ℚ) { Hist.mk' true 0 [0, 1] .linear 0 (6485183463413514 / 2 ^ 56) none 12 with
      left := List.replicate 11 [1, 0] ++ [[2, 0]], right := List.replicate 11 [1, 1] ++ [[0, 1]] } (List.range 12) .gini
      (some 3)).toOption.map (fun l => l.map Prod.fst) = some (List.replicate 11 (.fin (-1 / 9)) ++ [.fin (-4 / 9)]) := by
  have hD : rnd (6485183463413514 / 2 ^ 56 - 0) = 6485183463413514 / 2 ^ 56 := by
    rw [sub_zero]
    exact h.exact (floatNum_of 6485183463413514 (-56) (by norm_num) (by norm_num))
  have hw : binWidthR rnd 0 (6485183463413514 / 2 ^ 56) 12 = 4716497064300737 / 2 ^ 59 := by
    unfold binWidthR
    rw [hD, h.eq_of_close (m := 4716497064300737) (e := -59) (by norm_num) (by norm_num) (by norm_num)
      (by rw [abs_lt]; norm_num)]
    norm_num
  have hmax : linearBinR rnd 0 (6485183463413514 / 2 ^ 56) 12 (6485183463413514 / 2 ^ 56) = 12 := by
    unfold linearBinR
    rw [if_neg (by norm_num), hD, hw]
    rw [h.eq_of_close (m := 6192449487634433) (e := -49) (by norm_num) (by norm_num) (by norm_num)
      (by rw [abs_lt]; norm_num)]
    have : ⌈((6192449487634433 : ℤ) : ℚ) * 2 ^ (-49 : ℤ)⌉ = 12 := by
      rw [Int.ceil_eq_iff]
      norm_num
    simp only [this]
    norm_num [Int.toNat]
  have hmid : linearBinR rnd 0 (6485183463413514 / 2 ^ 56) 12 (6413125869375586 / 2 ^ 56) = 11 := by
    have hv : rnd (6413125869375586 / 2 ^ 56 - 0) = 6413125869375586 / 2 ^ 56 := by
      rw [sub_zero]
      exact h.exact (floatNum_of 6413125869375586 (-56) (by norm_num) (by norm_num))
    unfold linearBinR
    rw [if_neg (by norm_num), hv, hw]
    rw [h.eq_of_close (m := 6123644493327383) (e := -49) (by norm_num) (by norm_num) (by norm_num)
      (by rw [abs_lt]; norm_num)]
    have : ⌈((6123644493327383 : ℤ) : ℚ) * 2 ^ (-49 : ℤ)⌉ = 11 := by
      rw [Int.ceil_eq_iff]
      norm_num
    simp only [this]
    norm_num [Int.toNat]
  have hmin := (C113_linear_lookup_partial h (by norm_num) 0 (6485183463413514 / 2 ^ 56) (by norm_num) 12 (by norm_num)).2.1
  refine ⟨?_, hmax, ?_, ?_⟩
  · unfold linspaceR
    rw [if_neg (by norm_num), List.getElem?_map, List.getElem?_range (by norm_num)]
    simp
  · unfold tablesR
    simp only [List.map_cons, List.map_nil, hmax, hmid, hmin]
    decide
  · decide +kernel

end FF
