import Mathlib.Algebra.Order.Round
import Mathlib.Data.Int.Log
import Mathlib.Tactic.LinearCombination
import Mathlib.Tactic.Linarith
import Mathlib.Tactic.FieldSimp
import Mathlib.Tactic.Ring
import Mathlib.Tactic.Positivity
import Verif.Spec.Rounding

/-!
# Facts about rounding to nearest
-/

namespace FF

set_option linter.unusedSectionVars false

variable {K : Type} [Field K] [LinearOrder K] [IsStrictOrderedRing K] [FloorRing K] {p : Nat} {rnd : K → K}

theorem FloatNum.zero : FloatNum p (0 : K) := ⟨0, 0, by simp, by simp⟩

theorem FloatNum.neg {x : K} (h : FloatNum p x) : FloatNum p (-x) := by
  obtain ⟨m, e, hm, rfl⟩ := h
  exact ⟨-m, e, by simpa using hm, by push_cast; ring⟩

theorem Nearest.exact (h : Nearest p rnd) {x : K} (hx : FloatNum p x) : rnd x = x := by
  have := h.near x x hx
  rw [sub_self, abs_zero] at this
  have := abs_eq_zero.1 (le_antisymm this (abs_nonneg _))
  linarith

theorem Nearest.zero (h : Nearest p rnd) : rnd 0 = 0 := h.exact FloatNum.zero

theorem Nearest.mono (h : Nearest p rnd) {x y : K} (hxy : x ≤ y) : rnd x ≤ rnd y := by
  by_contra hc
  push Not at hc
  have h1 := h.near x (rnd y) (h.float y)
  have h2 := h.near y (rnd x) (h.float x)
  rcases hxy.eq_or_lt with rfl | hlt
  · exact lt_irrefl _ hc
  · rcases abs_cases (x - rnd x) with ⟨e1, _⟩ | ⟨e1, _⟩ <;> rcases abs_cases (x - rnd y) with ⟨e2, _⟩ | ⟨e2, _⟩ <;>
    rcases abs_cases (y - rnd x) with ⟨e3, _⟩ | ⟨e3, _⟩ <;> rcases abs_cases (y - rnd y) with ⟨e4, _⟩ | ⟨e4, _⟩ <;>
    simp only [e1, e2, e3, e4] at h1 h2 <;> linarith

theorem two_zpow_pos (e : ℤ) : (0 : K) < 2 ^ e := zpow_pos (by norm_num) e

/-- The spacing of the floating-point numbers around `x`. -/
def ulpOf (p : Nat) (x : K) : K := 2 ^ (Int.log 2 |x| + 1 - (p : ℤ))

/-- `x` to the nearest multiple of the spacing. -/
noncomputable def roundTo (p : Nat) (x : K) : K := (round (x / ulpOf p x) : K) * ulpOf p x

theorem log_bounds {x : K} (hx : x ≠ 0) : (2 : K) ^ (Int.log 2 |x|) ≤ |x| ∧ |x| < 2 ^ (Int.log 2 |x| + 1) :=
  ⟨by exact_mod_cast Int.zpow_log_le_self (b := 2) (by norm_num) (abs_pos.2 hx),
   by exact_mod_cast Int.lt_zpow_succ_log_self (b := 2) (by norm_num) |x|⟩

/-- Large floating-point numbers are multiples of large powers of two. -/
theorem FloatNum.multiple {z : K} (h : FloatNum p z) {e : ℤ} (hz : (2 : K) ^ (e + (p : ℤ) - 1) ≤ |z|) :
    ∃ k : ℤ, z = k * 2 ^ e := by
  obtain ⟨m, f, hm, rfl⟩ := h
  have hf : e ≤ f := by
    by_contra hc
    push Not at hc
    rw [abs_mul, abs_of_pos (two_zpow_pos (K := K) f)] at hz
    have h1 : (|(m : K)|) < 2 ^ p := by exact_mod_cast hm
    have h2 : |(m : K)| * 2 ^ f < 2 ^ p * 2 ^ f := mul_lt_mul_of_pos_right h1 (two_zpow_pos f)
    have h3 : (2 : K) ^ p * 2 ^ f = 2 ^ ((p : ℤ) + f) := by
      rw [zpow_add₀ (by norm_num), zpow_natCast]
    rw [h3] at h2
    have h4 : (2 : K) ^ ((p : ℤ) + f) ≤ 2 ^ (e + (p : ℤ) - 1) := zpow_le_zpow_right₀ (by norm_num) (by omega)
    exact absurd (lt_of_le_of_lt hz h2) (not_lt.2 h4)
  obtain ⟨j, rfl⟩ := Int.le.dest hf
  refine ⟨m * 2 ^ j, ?_⟩
  push_cast
  rw [zpow_add₀ (by norm_num), zpow_natCast]
  ring

theorem roundTo_float (hp : 1 ≤ p) (x : K) : FloatNum p (roundTo p x) ∧ |x - roundTo p x| ≤ ulpOf p x / 2 := by
  have hs : (0 : K) < ulpOf p x := two_zpow_pos _
  have hr : |x - roundTo p x| ≤ ulpOf p x / 2 := by
    have h := abs_sub_round (x / ulpOf p x)
    have e : x - roundTo p x = (x / ulpOf p x - round (x / ulpOf p x)) * ulpOf p x := by
      unfold roundTo
      rw [sub_mul, div_mul_cancel₀ _ hs.ne']
    rw [e, abs_mul, abs_of_pos hs]
    linarith [mul_le_mul_of_nonneg_right h hs.le]
  refine ⟨?_, hr⟩
  by_cases hx : x = 0
  · subst hx
    unfold roundTo
    simp [FloatNum.zero]
  · obtain ⟨h1, h2⟩ := log_bounds hx
    have hlt : |x / ulpOf p x| < 2 ^ p := by
      rw [abs_div, abs_of_pos hs, div_lt_iff₀ hs]
      unfold ulpOf
      rw [← zpow_natCast, ← zpow_add₀ (by norm_num)]
      convert h2 using 2
      ring
    have hm : |round (x / ulpOf p x)| ≤ 2 ^ p := by
      have h3 := abs_sub_round (x / ulpOf p x)
      have h4 : |(round (x / ulpOf p x) : K)| < 2 ^ p + 1 := by
        have h5 := abs_sub_abs_le_abs_sub (round (x / ulpOf p x) : K) (x / ulpOf p x)
        rw [abs_sub_comm] at h3
        linarith
      have h5 : |round (x / ulpOf p x)| < 2 ^ p + 1 := by exact_mod_cast h4
      omega
    rcases hm.lt_or_eq with hm | hm
    · exact ⟨_, _, hm, rfl⟩
    · refine ⟨if 0 ≤ round (x / ulpOf p x) then 1 else -1, Int.log 2 |x| + 1, ?_, ?_⟩
      · have : (1 : ℤ) < 2 ^ p := one_lt_pow₀ (by norm_num) (by omega)
        split_ifs <;> simpa using this
      · have hpow : (2 : K) ^ p * ulpOf p x = 2 ^ (Int.log 2 |x| + 1) := by
          unfold ulpOf
          rw [← zpow_natCast, ← zpow_add₀ (by norm_num)]
          congr 1
          ring
        unfold roundTo
        split_ifs with h0
        · rw [abs_of_nonneg h0] at hm
          rw [hm]; push_cast; rw [hpow]; ring
        · rw [abs_of_neg (not_le.1 h0)] at hm
          have : round (x / ulpOf p x) = -2 ^ p := by omega
          rw [this]; push_cast; rw [neg_mul, hpow]; ring

/-- Rounding to nearest exists. -/
theorem nearest_roundTo (hp : 1 ≤ p) : Nearest p (roundTo (K := K) p) := by
  refine ⟨fun x => (roundTo_float hp x).1, fun x z hz => ?_⟩
  have hs : (0 : K) < ulpOf p x := two_zpow_pos _
  have hmult : ∀ k : ℤ, |x - roundTo p x| ≤ |x - k * ulpOf p x| := by
    intro k
    have h := round_le (x / ulpOf p x) k
    have e : ∀ j : ℤ, x - j * ulpOf p x = (x / ulpOf p x - j) * ulpOf p x := by
      intro j
      rw [sub_mul, div_mul_cancel₀ _ hs.ne']
    unfold roundTo
    rw [e, e, abs_mul, abs_mul]
    exact mul_le_mul_of_nonneg_right h (abs_nonneg _)
  by_cases hx : x = 0
  · subst hx
    have := hmult 0
    simp only [Int.cast_zero, zero_mul, sub_zero, abs_zero] at this
    exact this.trans (abs_nonneg _)
  · obtain ⟨h1, h2⟩ := log_bounds hx
    have hlow : (2 : K) ^ (p - 1) * ulpOf p x = 2 ^ Int.log 2 |x| := by
      unfold ulpOf
      rw [← zpow_natCast, ← zpow_add₀ (by norm_num)]
      congr 1
      push_cast [Nat.cast_sub hp]
      ring
    rcases le_or_gt ((2 : K) ^ Int.log 2 |x|) |z| with hz' | hz'
    · obtain ⟨k, hk⟩ := hz.multiple (e := Int.log 2 |x| + 1 - (p : ℤ)) (by convert hz' using 2; ring)
      rw [hk]
      exact hmult k
    · rcases lt_or_gt_of_ne hx with hneg | hpos
      · have h3 := hmult (-2 ^ (p - 1))
        push_cast at h3
        rw [neg_mul, hlow] at h3
        rw [abs_of_neg hneg] at h1 h3 hz'
        refine h3.trans ?_
        rw [abs_lt] at hz'
        rw [abs_of_nonpos (by linarith), abs_of_nonpos (by linarith)]
        linarith [hz'.1]
      · have h3 := hmult (2 ^ (p - 1))
        push_cast at h3
        rw [hlow] at h3
        rw [abs_of_pos hpos] at h1 h3 hz'
        refine h3.trans ?_
        rw [abs_lt] at hz'
        rw [abs_of_nonneg (by linarith), abs_of_nonneg (by linarith)]
        linarith [hz'.2]

/-- The relative error of rounding to nearest. -/
theorem Nearest.rel (h : Nearest p rnd) (hp : 1 ≤ p) (x : K) : |rnd x - x| ≤ (1 / 2 ^ p) * |x| := by
  by_cases hx : x = 0
  · subst hx; rw [h.zero]; simp
  · obtain ⟨h1, h2⟩ := roundTo_float hp x
    have h3 := (h.near x _ h1).trans h2
    rw [abs_sub_comm] at h3
    refine h3.trans ?_
    have h4 := (log_bounds hx).1
    have h5 : ulpOf p x / 2 = (1 / 2 ^ p) * 2 ^ Int.log 2 |x| := by
      unfold ulpOf
      rw [sub_eq_add_neg, zpow_add₀ (by norm_num), zpow_add₀ (by norm_num), zpow_neg, zpow_natCast, zpow_one]
      field_simp
    rw [h5]
    exact mul_le_mul_of_nonneg_left h4 (by positivity)

/-- A number that is less than half a unit away from `m * 2^e` is rounded to it. -/
theorem Nearest.eq_of_close (h : Nearest p rnd) {m e : ℤ} (hm : m < 2 ^ p) (hm' : 2 ^ (p - 1) < m) (hp : 1 ≤ p) {x : K}
    (hx : |x - m * 2 ^ e| < 2 ^ e / 2) : rnd x = m * 2 ^ e := by
  have hs : (0 : K) < 2 ^ e := two_zpow_pos e
  have hm0 : (0 : ℤ) < 2 ^ (p - 1) := by positivity
  have hy : FloatNum p ((m : K) * 2 ^ e) := ⟨m, e, by rw [abs_of_pos (by omega)]; exact hm, rfl⟩
  have h1 := h.near x _ hy
  have hlow : (2 : K) ^ (p - 1) * 2 ^ e = 2 ^ (e + (p : ℤ) - 1) := by
    rw [← zpow_natCast, ← zpow_add₀ (by norm_num)]
    congr 1
    push_cast [Nat.cast_sub hp]
    ring
  have hm1 : (2 : K) ^ (p - 1) + 1 ≤ m := by exact_mod_cast hm'
  rw [abs_lt] at hx
  have h2 : |x - rnd x| < 2 ^ e / 2 := lt_of_le_of_lt h1 (abs_lt.2 hx)
  rw [abs_lt] at h2
  have h3 : (2 : K) ^ (e + (p : ℤ) - 1) ≤ |rnd x| := by
    rw [← hlow]
    have : (2 : K) ^ (p - 1) * 2 ^ e + 2 ^ e ≤ m * 2 ^ e := by nlinarith
    exact le_trans (by linarith) (le_abs_self _)
  obtain ⟨k, hk⟩ := (h.float x).multiple h3
  rw [hk] at h2 ⊢
  have h4 : |((k - m : ℤ) : K)| < 1 := by
    push_cast
    rw [abs_lt]
    constructor
    · by_contra hc
      push Not at hc
      have := mul_le_mul_of_nonneg_right hc hs.le
      linarith
    · by_contra hc
      push Not at hc
      have := mul_le_mul_of_nonneg_right hc hs.le
      linarith
  have h5 : |k - m| < 1 := by exact_mod_cast h4
  have : k = m := by have := Int.abs_lt_one_iff.1 h5; omega
  rw [this]

end FF
