import Verif.Model.Solvers

/-!
# Order facts about extended floats; minima of arrays
-/

namespace FF

set_option linter.unusedSectionVars false

variable {K : Type} [Field K] [LinearOrder K]

namespace XF

theorem not_lt_trans {a b c : XF K} (hb : b.isNan = false) (h1 : a.lt b = false) (h2 : b.lt c = false) : a.lt c = false := by
  cases a <;> cases b <;> cases c <;> simp_all [XF.lt, XF.isNan]
  exact le_trans h2 h1

theorem not_lt_of_lt {a b : XF K} (h : a.lt b = true) : b.lt a = false := by
  cases a <;> cases b <;> simp_all [XF.lt]
  exact h.le

theorem lt_irrefl (a : XF K) : a.lt a = false := by
  cases a <;> simp [XF.lt]

theorem lt_trans {a b c : XF K} (h1 : a.lt b = true) (h2 : b.lt c = true) : a.lt c = true := by
  cases a <;> cases b <;> cases c <;> simp_all [XF.lt]
  exact _root_.lt_trans h1 h2

theorem lt_of_lt_of_not_lt {a b c : XF K} (hc : c.isNan = false) (h1 : a.lt b = true) (h2 : c.lt b = false) :
    a.lt c = true := by
  cases a <;> cases b <;> cases c <;> simp_all [XF.lt, XF.isNan]
  exact lt_of_lt_of_le h1 h2

theorem eqv_iff {a b : XF K} : a.eqv b = true ↔ a = b ∧ a.isNan = false := by
  cases a <;> cases b <;> simp [XF.eqv, XF.isNan]

theorem eq_of_not_lt {a b : XF K} (ha : a.isNan = false) (hb : b.isNan = false) (h1 : a.lt b = false) (h2 : b.lt a = false) :
    a = b := by
  cases a <;> cases b <;> simp_all [XF.lt, XF.isNan]
  exact le_antisymm h2 h1

theorem foldl_min2_spec (xs : List (XF K)) (x : XF K) (hx : x.isNan = false) (h : ∀ y ∈ xs, y.isNan = false) :
    xs.foldl min2 x ∈ x :: xs ∧ (xs.foldl min2 x).isNan = false ∧ ∀ y ∈ x :: xs, y.lt (xs.foldl min2 x) = false := by
  induction xs generalizing x with
  | nil =>
    refine ⟨by simp, hx, ?_⟩
    intro y hy
    rw [List.mem_singleton] at hy
    subst hy
    exact lt_irrefl _
  | cons z zs ih =>
    have hz := h z List.mem_cons_self
    have hm : min2 x z = (if lt z x then z else x) := by
      unfold min2
      simp [hx, hz]
    have hmn : (min2 x z).isNan = false := by
      rw [hm]; split <;> assumption
    obtain ⟨i1, i2, i3⟩ := ih (min2 x z) hmn (fun y hy => h y (List.mem_cons_of_mem _ hy))
    rw [List.foldl_cons]
    have hxm : x.lt (min2 x z) = false ∧ z.lt (min2 x z) = false := by
      rw [hm]
      split
      · next hlt => exact ⟨not_lt_of_lt hlt, lt_irrefl _⟩
      · next hlt => exact ⟨lt_irrefl _, by simpa using hlt⟩
    refine ⟨?_, i2, ?_⟩
    · rw [List.mem_cons] at i1
      rcases i1 with i1 | i1
      · rw [i1, hm]
        split <;> simp
      · simp [i1]
    · intro y hy
      have i0 := i3 (min2 x z) List.mem_cons_self
      rw [List.mem_cons, List.mem_cons] at hy
      rcases hy with rfl | rfl | hy
      · exact not_lt_trans hmn hxm.1 i0
      · exact not_lt_trans hmn hxm.2 i0
      · exact i3 y (List.mem_cons_of_mem _ hy)

theorem min2_nan_left (b : XF K) : min2 nan b = nan := rfl

theorem min2_nan_right (a : XF K) : min2 a nan = nan := by
  unfold min2; cases a <;> rfl

theorem foldl_min2_nan (xs : List (XF K)) : xs.foldl min2 nan = nan := by
  induction xs with
  | nil => rfl
  | cons x xs ih => exact ih

theorem foldl_min2_mem_nan (xs : List (XF K)) (x : XF K) (h : nan ∈ xs) : xs.foldl min2 x = nan := by
  induction xs generalizing x with
  | nil => simp at h
  | cons y ys ih =>
    rw [List.foldl_cons]
    rw [List.mem_cons] at h
    rcases h with rfl | h
    · rw [min2_nan_right, foldl_min2_nan]
    · exact ih _ h

/-- `ndarray.min()`. -/
theorem minArr_spec {l : List (XF K)} {m : XF K} (h : minArr l = some m) :
    (m = nan ∧ nan ∈ l) ∨ (m.isNan = false ∧ nan ∉ l ∧ m ∈ l ∧ ∀ y ∈ l, y.lt m = false) := by
  cases l with
  | nil => cases h
  | cons x xs =>
    simp only [minArr, Option.some.injEq] at h
    by_cases hn : nan ∈ x :: xs
    · left
      refine ⟨?_, hn⟩
      rw [← h]
      rw [List.mem_cons] at hn
      rcases hn with rfl | hn
      · exact foldl_min2_nan _
      · exact foldl_min2_mem_nan _ _ hn
    · right
      have hnn : ∀ y ∈ x :: xs, y.isNan = false := by
        intro y hy
        cases y with
        | nan => exact absurd hy hn
        | _ => rfl
      obtain ⟨a, b, c⟩ := foldl_min2_spec xs x (hnn x List.mem_cons_self) (fun y hy => hnn y (List.mem_cons_of_mem _ hy))
      rw [h] at a b c
      exact ⟨b, hn, a, c⟩

/-- `np.nanmin`. -/
theorem nanmin_spec {l : List (XF K)} {m : XF K} (h : nanmin l = some m) :
    l ≠ [] ∧ ((m = nan ∧ ∀ y ∈ l, y = nan) ∨
      (m.isNan = false ∧ m ∈ l ∧ ∀ y ∈ l, y.lt m = false)) := by
  unfold nanmin at h
  split_ifs at h with hl
  refine ⟨hl, ?_⟩
  split at h
  · next hf =>
    left
    cases h
    refine ⟨rfl, fun y hy => ?_⟩
    rw [List.filter_eq_nil_iff] at hf
    have := hf y hy
    cases y <;> simp_all [isNan]
  · next x xs hf =>
    right
    simp only [Option.some.injEq] at h
    have hnn : ∀ y ∈ x :: xs, y.isNan = false := by
      intro y hy
      rw [← hf, List.mem_filter] at hy
      simpa using hy.2
    obtain ⟨a, b, c⟩ := foldl_min2_spec xs x (hnn x List.mem_cons_self) (fun y hy => hnn y (List.mem_cons_of_mem _ hy))
    rw [h] at a b c
    refine ⟨b, ?_, ?_⟩
    · rw [← hf] at a
      exact (List.mem_filter.1 a).1
    · intro y hy
      cases hy' : y.isNan with
      | true => cases y <;> simp_all [isNan, XF.lt]
      | false =>
        apply c
        rw [← hf, List.mem_filter]
        exact ⟨hy, by simp [hy']⟩

theorem nanmin_isSome {l : List (XF K)} (h : l ≠ []) : ∃ m, nanmin l = some m := by
  unfold nanmin
  rw [if_neg h]
  split <;> exact ⟨_, rfl⟩

end XF

end FF
