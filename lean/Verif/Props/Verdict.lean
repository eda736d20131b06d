import Verif.Props.Compare

set_option linter.unusedSectionVars false

/-!
# The verdicts of the experiments (C124)
-/

namespace FF

open Spec

variable {K : Type} [Field K] [LinearOrder K] [IsStrictOrderedRing K] [FloorRing K] [NpFun K] {G : Type}

section
variable {R : Rng K G}

theorem npVar_nonneg' (l : List K) : 0 ≤ npVar l := by
  unfold npVar
  apply div_nonneg
  · apply List.sum_nonneg
    intro x hx
    obtain ⟨y, _, rfl⟩ := List.mem_map.1 hx
    exact mul_self_nonneg _
  · exact Nat.cast_nonneg _

theorem stdErr_nonneg (l : List K) : 0 ≤ stdErr l :=
  div_nonneg (NpFun.sqrt_nonneg _ (npVar_nonneg' l)) (NpFun.sqrt_nonneg _ (Nat.cast_nonneg _))

theorem npMean_replicate (n : Nat) (hn : n ≠ 0) (v : K) : npMean (List.replicate n v) = v := by
  have : (n : K) ≠ 0 := Nat.cast_ne_zero.2 hn
  unfold npMean
  rw [List.sum_replicate, List.length_replicate, nsmul_eq_mul]
  field_simp

theorem stdErr_replicate (n : Nat) (v : K) : stdErr (List.replicate n v) = 0 := by
  by_cases hn : n = 0
  · subst hn
    simp [stdErr, npVar, NpFun.sqrt_zero]
  · unfold stdErr npVar
    rw [npMean_replicate n hn, List.map_replicate, sub_self, mul_zero, List.sum_replicate, smul_zero, zero_div, NpFun.sqrt_zero, zero_div]

theorem openMeet_iff {m s m' s' : K} (hs : 0 < s) (hs' : 0 < s') : OpenMeet m s m' s' ↔ |m' - m| < s' + s := by
  constructor
  · rintro ⟨x, h1, h2⟩
    have : |m' - m| ≤ |x - m| + |x - m'| := by
      have := abs_sub (x - m) (x - m')
      rwa [show x - m - (x - m') = m' - m by ring] at this
    linarith
  · intro h
    rw [abs_lt] at h
    -- the point that divides the way in the ratio of the spreads
    have hsum : 0 < s + s' := by linarith
    refine ⟨m + (m' - m) * (s / (s + s')), ?_, ?_⟩
    · rw [show m + (m' - m) * (s / (s + s')) - m = (m' - m) * (s / (s + s')) by ring, abs_mul, abs_of_pos (div_pos hs hsum)]
      rw [mul_div_assoc', div_lt_iff₀ hsum]
      have : |m' - m| < s + s' := by rw [abs_lt]; constructor <;> linarith
      nlinarith
    · have e : m + (m' - m) * (s / (s + s')) - m' = -((m' - m) * (s' / (s + s'))) := by
        field_simp
        ring
      rw [e, abs_neg, abs_mul, abs_of_pos (div_pos hs' hsum), mul_div_assoc', div_lt_iff₀ hsum]
      have : |m' - m| < s + s' := by rw [abs_lt]; constructor <;> linarith
      nlinarith

theorem closedMeet_iff {m s m' s' : K} (hs : 0 ≤ s) (hs' : 0 ≤ s') : ClosedMeet m s m' s' ↔ |m' - m| ≤ s' + s := by
  constructor
  · rintro ⟨x, h1, h2⟩
    have : |m' - m| ≤ |x - m| + |x - m'| := by
      have := abs_sub (x - m) (x - m')
      rwa [show x - m - (x - m') = m' - m by ring] at this
    linarith
  · intro h
    rw [abs_le] at h
    rcases le_total m m' with hm | hm
    · refine ⟨min (m + s) m', ?_, ?_⟩
      · rw [abs_le]
        constructor
        · have := le_min (show m - s ≤ m + s by linarith) (show m - s ≤ m' by linarith)
          linarith
        · have := min_le_left (m + s) m'
          linarith
      · rw [abs_le]
        constructor
        · have := le_min (show m' - s' ≤ m + s by linarith) (show m' - s' ≤ m' by linarith)
          linarith
        · have := min_le_right (m + s) m'
          linarith
    · refine ⟨max (m - s) m', ?_, ?_⟩
      · rw [abs_le]
        constructor
        · have := le_max_left (m - s) m'
          linarith
        · have := max_le (show m - s ≤ m + s by linarith) (show m' ≤ m + s by linarith)
          linarith
      · rw [abs_le]
        constructor
        · have := le_max_right (m - s) m'
          linarith
        · have := max_le (show m - s ≤ m' + s' by linarith) (show m' ≤ m' + s' by linarith)
          linarith

end

/-! ### C124 -/

/-- C124, budgets and running times, when the results of both models vary: `overlap` says whether the two intervals of one standard error have a
common (inner) point. -/
theorem C124_overlap_partial (ours theirs : List K) (h1 : 0 < stdErr ours) (h2 : 0 < stdErr theirs) :
    cmpOverlap ours theirs = true ↔ OpenMeet (npMean ours) (stdErr ours) (npMean theirs) (stdErr theirs) := by
  rw [openMeet_iff h1 h2]
  simp [cmpOverlap]

/-- C124, the verdict of a whole comparison is about the test scores it reports: those of our model against those of the other one. -/
theorem C124_verdict_partial {R : Rng K G} (mem : Nat → Bool → Nat → Nat → Junk K) (c : Cmp K) (n : Nat) (w w' : World K G) (res : CmpResult K)
    (ht : c.runTheirs = true) (h : compareModels R mem c n w = .ok (res, w')) (ours theirs : List K)
    (ho : res.rows.map (fun r => r.ours.test) = ours.map some)
    (hth : res.rows.map (fun r => r.theirs.bind CmpSide.test) = theirs.map some)
    (h1 : 0 < stdErr ours) (h2 : 0 < stdErr theirs) :
    ∃ b, res.overlap = some b ∧ (b = true ↔ OpenMeet (npMean ours) (stdErr ours) (npMean theirs) (stdErr theirs)) := by
  have key : ∀ (f : CmpRow K → Option K) (rows : List (CmpRow K)) (l : List K), rows.map f = l.map some → rows.filterMap f = l := by
    intro f rows
    induction rows with
    | nil => intro l hl; cases l with
      | nil => rfl
      | cons _ _ => simp at hl
    | cons r rows ih =>
      intro l hl
      cases l with
      | nil => simp at hl
      | cons a l =>
        simp only [List.map_cons, List.cons.injEq] at hl
        rw [List.filterMap_cons_some hl.1, ih l hl.2]
  unfold compareModels at h
  split at h
  · simp at h
  · simp only [ht, if_true] at h
    split_ifs at h
    simp only [Except.ok.injEq, Prod.mk.injEq] at h
    obtain ⟨rfl, _⟩ := h
    refine ⟨_, rfl, ?_⟩
    dsimp only at ho hth
    rw [key _ _ _ ho, key _ _ _ hth]
    exact C124_overlap_partial ours theirs h1 h2

/-- C124: `overlap` does not depend on which model is called ours. -/
theorem C124_symmetric (ours theirs : List K) : cmpOverlap ours theirs = cmpOverlap theirs ours := by
  unfold cmpOverlap
  rw [abs_sub_comm, add_comm (stdErr theirs)]

/-- C124 is false when the results do not vary: two models with the same result in every round — for instance, in the one round that is the
default — do not overlap, although their intervals are the same point. -/
theorem C124_refuted_constant (n : Nat) (hn : n ≠ 0) (v : K) :
    cmpOverlap (List.replicate n v) (List.replicate n v) = false ∧
    ClosedMeet (npMean (List.replicate n v)) (stdErr (List.replicate n v)) (npMean (List.replicate n v)) (stdErr (List.replicate n v)) := by
  constructor
  · simp [cmpOverlap, stdErr_replicate]
  · exact ⟨npMean (List.replicate n v), by simp [stdErr_nonneg], by simp [stdErr_nonneg]⟩

/-- C124: with one round, the verdict is "no overlap" whatever the two results are. -/
theorem C124_one_round (x y : K) : cmpOverlap [x] [y] = false := by
  have h1 : stdErr [x] = 0 := stdErr_replicate 1 x
  have h2 : stdErr [y] = 0 := stdErr_replicate 1 y
  simp [cmpOverlap, h1, h2]

/-- C124 is false of the heart experiment: when it reports an overlap, the two confidence intervals have no point in common. -/
theorem C124_refuted_heart (z : K) (hz : 0 ≤ z) (ff sk : List K) (h : heartOverlap z ff sk = true) :
    ¬ ClosedMeet (npMean ff) (z * stdErr ff) (npMean sk) (z * stdErr sk) := by
  have e1 := mul_nonneg hz (stdErr_nonneg ff)
  have e2 := mul_nonneg hz (stdErr_nonneg sk)
  rw [closedMeet_iff e1 e2]
  have h' : 2 * (z * stdErr ff + z * stdErr sk) < npMean ff - npMean sk := of_decide_eq_true h
  intro hc
  rw [abs_le] at hc
  linarith

/-- C124 is false of the heart experiment: equal results are reported as no overlap. -/
theorem C124_refuted_heart_equal (z : K) (hz : 0 ≤ z) (l : List K) :
    heartOverlap z l l = false ∧ ClosedMeet (npMean l) (z * stdErr l) (npMean l) (z * stdErr l) := by
  have e1 := mul_nonneg hz (stdErr_nonneg l)
  constructor
  · apply decide_eq_false
    rw [sub_self]
    linarith
  · exact ⟨npMean l, by simpa using e1, by simpa using e1⟩

/-- C124, stability, when the mean of the second model is not below that of the first: `is_overlap` says whether the two confidence intervals
have a common point. -/
theorem C124_stability_partial (z : K) (hz : 0 ≤ z) (exact mab : List K) (h : npMean exact ≤ npMean mab) :
    stabOverlap z exact mab = true ↔ ClosedMeet (npMean exact) (stdErr exact * z) (npMean mab) (stdErr mab * z) := by
  have e1 := mul_nonneg (stdErr_nonneg exact) hz
  have e2 := mul_nonneg (stdErr_nonneg mab) hz
  rw [closedMeet_iff e1 e2, abs_of_nonneg (sub_nonneg.2 h)]
  unfold stabOverlap confInterval
  rw [decide_eq_true_iff]
  constructor <;> intro h' <;> dsimp only at * <;> linarith

/-- C124 is false of the stability test when the second model is clearly the less stable one: this is reported as an overlap. -/
theorem C124_refuted_stability (z : K) (hz : 0 ≤ z) (exact mab : List K) (h : (confInterval z mab).2 < (confInterval z exact).1) :
    stabOverlap z exact mab = true ∧ ¬ ClosedMeet (npMean exact) (stdErr exact * z) (npMean mab) (stdErr mab * z) := by
  have e1 := mul_nonneg (stdErr_nonneg exact) hz
  have e2 := mul_nonneg (stdErr_nonneg mab) hz
  unfold confInterval at h
  dsimp only at h
  constructor
  · unfold stabOverlap confInterval
    rw [decide_eq_true_iff]
    dsimp only
    linarith
  · rw [closedMeet_iff e1 e2, abs_le]
    rintro ⟨h1, _⟩
    linarith

/-- The hypotheses can be met: both spreads positive, and either answer. -/
example : 0 < stdErr [(1 : ℚ), 3] ∧ 0 < stdErr [(2 : ℚ), 6] ∧ cmpOverlap [(1 : ℚ), 3] [2, 6] = true ∧ cmpOverlap [(1 : ℚ), 3] [12, 16] = false := by
  decide +kernel

/-- The heart experiment reports an overlap of accuracies near 1 with accuracies near 0. -/
example : heartOverlap (196 / 100 : ℚ) [9 / 10, 1] [0, 1 / 10] = true := by decide +kernel

/-- The stability test reports an overlap of 1 / 10 ± 7 / 100 with 1 ± 0, and none of 1 with 1 / 10. -/
example : stabOverlap (196 / 100 : ℚ) [1, 1] [1 / 20, 3 / 20] = true ∧
    (confInterval (196 / 100 : ℚ) [1 / 20, 3 / 20]).2 < (confInterval (196 / 100 : ℚ) [1, 1]).1 ∧
    stabOverlap (196 / 100 : ℚ) [1 / 20, 3 / 20] [1, 1] = false := by decide +kernel

/-- A whole comparison with its scores and its verdict. -/
example : ((compareModels rngQ (fun _ _ => exMems) (cmpQ .extraR true) 2 cmpWorldQ).toOption).map
    (fun q => (q.1.rows.map (fun r => r.ours.test), q.1.rows.map (fun r => r.theirs.bind CmpSide.test), q.1.overlap)) =
    some ([some (1 / 8), some (733 / 72)], [some (365 / 144), some (985 / 72)], some true) := by decide +kernel

end FF
