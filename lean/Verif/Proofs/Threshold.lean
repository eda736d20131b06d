import Verif.Proofs.Exact
import Verif.Props.Criteria

/-!
# Thresholds between the values of a feature
-/

namespace FF

open Spec

set_option linter.unusedSectionVars false

variable {K : Type} [Field K] [LinearOrder K] [IsStrictOrderedRing K] [FloorRing K] [NpFun K] {G : Type}

theorem labelsLe_congr {S : List (K × K)} {t v : K} (h : ∀ s ∈ S, s.1 ≤ t ↔ s.1 ≤ v) : labelsLe S t = labelsLe S v := by
  unfold labelsLe
  congr 1
  exact List.filter_congr (fun s hs => by simp [h s hs])

theorem labelsGt_congr {S : List (K × K)} {t v : K} (h : ∀ s ∈ S, s.1 ≤ t ↔ s.1 ≤ v) : labelsGt S t = labelsGt S v := by
  unfold labelsGt
  congr 1
  exact List.filter_congr (fun s hs => by simp [← not_le, h s hs])

theorem change_congr (imp : List K → K) {S : List (K × K)} {t v : K} (h : ∀ s ∈ S, s.1 ≤ t ↔ s.1 ≤ v) :
    change imp S t = change imp S v := by
  unfold change
  rw [labelsLe_congr h, labelsGt_congr h]

theorem exists_max {l : List K} (h : l ≠ []) : ∃ v ∈ l, ∀ x ∈ l, x ≤ v := by
  induction l with
  | nil => exact absurd rfl h
  | cons a l ih =>
    rcases eq_or_ne l [] with rfl | hl
    · exact ⟨a, by simp, by simp⟩
    · obtain ⟨v, hv, hmax⟩ := ih hl
      rcases le_total a v with h1 | h1
      · exact ⟨v, List.mem_cons_of_mem _ hv, fun x hx => by
          rw [List.mem_cons] at hx
          rcases hx with rfl | hx
          · exact h1
          · exact hmax x hx⟩
      · exact ⟨a, List.mem_cons_self, fun x hx => by
          rw [List.mem_cons] at hx
          rcases hx with rfl | hx
          · exact le_refl _
          · exact le_trans (hmax x hx) h1⟩

/-- Every threshold separates the samples like the value of some sample, or leaves all of them on the right. -/
theorem threshold_cases (S : List (K × K)) (t : K) :
    labelsLe S t = [] ∨ ∃ v ∈ S.map Prod.fst, ∀ s ∈ S, s.1 ≤ t ↔ s.1 ≤ v := by
  rcases eq_or_ne ((S.map Prod.fst).filter (fun x => decide (x ≤ t))) [] with h | h
  · left
    unfold labelsLe
    rw [List.map_eq_nil_iff, List.filter_eq_nil_iff]
    intro s hs
    rw [List.filter_eq_nil_iff] at h
    exact h s.1 (List.mem_map.2 ⟨s, hs, rfl⟩)
  · right
    obtain ⟨v, hv, hmax⟩ := exists_max h
    rw [List.mem_filter] at hv
    refine ⟨v, hv.1, fun s hs => ⟨fun h1 => ?_, fun h1 => le_trans h1 (by simpa using hv.2)⟩⟩
    exact hmax s.1 (List.mem_filter.2 ⟨List.mem_map.2 ⟨s, hs, rfl⟩, by simpa using h1⟩)

end FF
