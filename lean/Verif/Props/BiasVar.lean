import Verif.Spec.BiasVar
import Verif.Props.Compare
import Verif.Props.Forget
import Verif.Props.OneTree

set_option linter.unusedSectionVars false

/-!
# Error, bias and variance (C126)
-/

namespace FF

open Spec

variable {K : Type} [Field K] [LinearOrder K] [IsStrictOrderedRing K] [FloorRing K] [NpFun K] {G : Type}

theorem takeE_picks {α : Type} {a : List α} {d : α} {idcs : List Nat} {r : List α} (h : takeE a d idcs = .ok r) : Picks a idcs r := by
  obtain ⟨rfl, h2⟩ := takeE_ok h
  unfold Picks
  rw [List.forall₂_map_right_iff]
  apply List.forall₂_same.2
  intro i hi
  rw [List.getD_eq_getElem _ _ (h2 i hi)]
  exact List.getElem?_eq_getElem _

/-- Sums of squares around a point. -/
theorem sum_sq_shift (l : List K) (a y : K) :
    (l.map (fun p => (p - y) ^ 2)).sum =
      (l.map (fun p => (a - p) ^ 2)).sum + 2 * (a - y) * (l.sum - l.length * a) + l.length * (a - y) ^ 2 := by
  induction l with
  | nil => simp
  | cons p l ih =>
    simp only [List.map_cons, List.sum_cons, List.length_cons, Nat.cast_add, Nat.cast_one]
    rw [ih]
    ring

/-- C126: for every test point the mean squared error of the trials is the variance of their predictions plus the squared distance of their mean
from the target. -/
theorem C126_error (b y : K) (ps : List K) (h : ps ≠ []) :
    (biasVar b y ps).error = (biasVar b y ps).variance + (npMean ps - y) ^ 2 := by
  have hl : (ps.length : K) ≠ 0 := by
    have := List.length_pos_of_ne_nil h
    exact_mod_cast this.ne'
  have hm := npMean_mul_length h
  have e := sum_sq_shift ps (npMean ps) y
  rw [← hm] at e
  unfold biasVar
  simp only
  generalize npMean ps = m at *
  unfold npMean
  rw [e]
  simp only [List.length_map]
  field_simp
  ring

/-- C126, the decomposition that the function is named after, with the term it leaves out: the error is noise + bias² + variance minus twice the
product of the noise and the bias (with signs). -/
theorem C126_decomposition_partial (b y : K) (ps : List K) (h : ps ≠ []) :
    (biasVar b y ps).error = (biasVar b y ps).noise + (biasVar b y ps).bias2 + (biasVar b y ps).variance - 2 * ((b - y) * (b - npMean ps)) := by
  rw [C126_error b y ps h]
  unfold biasVar
  simp only
  ring

/-- C126: the parts add up to the error exactly if there is no noise in the target or no bias in the mean prediction. -/
theorem C126_exact_iff (b y : K) (ps : List K) (h : ps ≠ []) :
    (biasVar b y ps).error = (biasVar b y ps).noise + (biasVar b y ps).bias2 + (biasVar b y ps).variance ↔ b = y ∨ b = npMean ps := by
  rw [C126_decomposition_partial b y ps h]
  constructor
  · intro e
    have : (b - y) * (b - npMean ps) = 0 := by linarith
    rcases mul_eq_zero.1 this with h1 | h1
    · exact Or.inl (sub_eq_zero.1 h1)
    · exact Or.inr (sub_eq_zero.1 h1)
  · rintro (rfl | h1)
    · simp
    · rw [← h1]; simp

/-- C126: noise, bias² and variance are not negative, and the error is at least the variance. -/
theorem C126_nonneg (b y : K) (ps : List K) (h : ps ≠ []) :
    0 ≤ (biasVar b y ps).noise ∧ 0 ≤ (biasVar b y ps).bias2 ∧ 0 ≤ (biasVar b y ps).variance ∧
      (biasVar b y ps).variance ≤ (biasVar b y ps).error := by
  refine ⟨sq_nonneg _, sq_nonneg _, ?_, ?_⟩
  · apply div_nonneg
    · apply List.sum_nonneg
      intro x hx
      obtain ⟨q, _, rfl⟩ := List.mem_map.1 hx
      exact sq_nonneg _
    · exact Nat.cast_nonneg _
  · rw [C126_error b y ps h]
    have := sq_nonneg (npMean ps - y)
    linarith

/-- C126 is false as stated: the parts add up to 2, the error is 0. -/
theorem C126_refuted : (biasVar (1 : ℚ) 0 [0, 0]) = ⟨1, 1, 0, 0⟩ := by decide +kernel

section
variable (R : Rng K G) (mem : Nat → Nat → Nat → Junk K)

/-- C126, trials: every row of predictions comes from a model with the settings of the given one that is fitted to the sample of this trial and to
nothing else. No array the caller has is changed. -/
theorem C126_trials (X : List (List K)) (Y : List K) (Xtest : List (List K)) (draws : List (List Nat)) (f f' : Forest K G) (w w' : World K G)
    (rows : List (List K)) (h : bvTrials R mem X Y Xtest draws f w = .ok (rows, f', w')) :
    List.Forall₂ (fun (idcs : List Nat) (row : List K) => TrialOf R f X Y Xtest idcs row) draws rows ∧
    (∀ row ∈ rows, row.length = Xtest.length) ∧
    ∀ r < w.arrays.length, w'.arrays[r]? = w.arrays[r]? := by
  suffices H : ∀ (draws : List (List Nat)) (f0 f' : Forest K G) (w w' : World K G) (rows : List (List K)),
      f0.cfg = f.cfg → f0.classes = f.classes → (f.remaining = none → f0.remaining = none) →
      bvTrials R mem X Y Xtest draws f0 w = .ok (rows, f', w') →
      List.Forall₂ (fun (idcs : List Nat) (row : List K) => TrialOf R f X Y Xtest idcs row) draws rows ∧
      (∀ row ∈ rows, row.length = Xtest.length) ∧
      ∀ r < w.arrays.length, w'.arrays[r]? = w.arrays[r]? from H draws f f' w w' rows rfl rfl (fun h => h) h
  intro draws
  induction draws with
  | nil =>
    intro f0 f' w w' rows _ _ _ h
    cases h
    exact ⟨List.Forall₂.nil, by simp, fun _ _ => rfl⟩
  | cons idcs draws ih =>
    intro f0 f' w w' rows e1 e2 e3 h
    unfold bvTrials at h
    cases hx : takeE X [] idcs with
    | error e => rw [hx] at h; cases h
    | ok xs =>
      rw [hx] at h
      dsimp only at h
      cases hy : takeE Y 0 idcs with
      | error e => rw [hy] at h; cases h
      | ok ys =>
        rw [hy] at h
        dsimp only at h
        cases hf : Forest.fit R (mem draws.length) f0 { w with arrays := w.arrays ++ [ys] } (some xs) (some w.arrays.length) with
        | error e => rw [hf] at h; cases h
        | ok q =>
          obtain ⟨f1, w1⟩ := q
          rw [hf] at h
          dsimp only at h
          cases hp : f1.predictBatch Xtest with
          | error e => rw [hp] at h; cases h
          | ok q =>
            obtain ⟨ps, f2⟩ := q
            rw [hp] at h
            dsimp only at h
            cases hb : bvTrials R mem X Y Xtest draws (f2.reset none) w1 with
            | error e => rw [hb] at h; cases h
            | ok q =>
              obtain ⟨rows', f3, w2⟩ := q
              rw [hb] at h
              cases h
              have hans := batch_answers hf AfterReads.none hp
              obtain ⟨s1, s2, _⟩ := Forest_fit_same hf
              have hacc := (Forest_fit_accounting hf).2.1
              obtain ⟨ts, m, hr, _⟩ := (predictBatch_reads Xtest hp).1.same
              obtain ⟨g1, g2, g3⟩ := ih (f2.reset none) f' w1 w' rows' (by rw [hr, ← e1, ← s1]; rfl)
                (by rw [hr, ← e2, ← s2]; rfl)
                (fun hn => by
                  rw [hr]
                  exact hacc.trans (by rw [e3 hn]; rfl)) hb
              refine ⟨List.Forall₂.cons ⟨mem draws.length, f0, f1, _, w1, w.arrays.length, xs, ps, e1, e2, e3, takeE_picks hx, ?_, hf, hans, rfl⟩ g1,
                ?_, ?_⟩
              · simp only [List.getD_eq_getElem?_getD, List.getElem?_concat_length, Option.getD_some]
                exact takeE_picks hy
              · intro row hrow
                rcases List.mem_cons.1 hrow with rfl | hrow
                · rw [List.length_map, ← hans.length_eq]
                · exact g2 row hrow
              · intro r hr'
                have hkeep : w1.arrays[r]? = w.arrays[r]? := by
                  rw [C54_labels_unchanged_partial R (mem draws.length) _ w1 (some xs) (some w.arrays.length) f0 f1 hf r (by simp; omega)
                    (Or.inr (by simp; omega))]
                  exact List.getElem?_append_left hr'
                have hlen : r < w1.arrays.length := by
                  by_contra hlt
                  rw [List.getElem?_eq_none (by omega), List.getElem?_eq_getElem hr'] at hkeep
                  cases hkeep
                rw [g3 r hlen, hkeep]

end

/-! ### Examples -/

/-- The rows of predictions for two test points, with a new model and the given samples. -/
def exTrials (budget : Option Int) (draws : List (List Nat)) : Option (List (List ℚ)) :=
  match Forest.init rngQ ⟨exWorldReg.glob, []⟩ fcfgPlainReg none none none budget with
  | .error _ => none
  | .ok (f, w) =>
    ((bvTrials rngQ (fun _ => exMems) exData [1, 2, 4, 7, 11, 16] [[0, 2], [4, 9]] draws f w).toOption).map Prod.fst

/-- Two trials without a budget: each gives what it gives on its own. -/
example : exTrials none [[0, 1, 2, 3], [2, 3, 4, 5, 5]] = some [[1, 4], [4, 11]] ∧ exTrials none [[2, 3, 4, 5, 5]] = some [[4, 11]] := by
  decide +kernel

/-- With a budget the trials are not alike: `reset` does not give back what earlier trials have spent, so that the second model is smaller than the
model which the same sample gives on its own. -/
theorem C126_refuted_budget : exTrials (some 60) [[0, 1, 2, 3], [2, 3, 4, 5, 5]] = some [[1, 4], [11 / 2, 43 / 3]] ∧
    exTrials (some 60) [[2, 3, 4, 5, 5]] = some [[9 / 2, 11]] := by decide +kernel

/-- All parts of the error at two test points. -/
example : biasVarAll [(2 : ℚ), 9] [1, 9] [[1, 4], [4, 11]] = [⟨1, 1 / 4, 9 / 4, 9 / 2⟩, ⟨0, 9 / 4, 49 / 4, 29 / 2⟩] := by decide +kernel

end FF
