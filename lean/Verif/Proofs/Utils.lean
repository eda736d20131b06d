import Verif.Proofs.TreeTotal
import Verif.Proofs.Criteria

/-!
# Helpers of `utils/utils.py` and `verify_reduction`
-/

namespace FF

open Spec

set_option linter.unusedSectionVars false

variable {K : Type} [Field K] [LinearOrder K] [IsStrictOrderedRing K] [FloorRing K] [NpFun K] {G : Type}

/-- The request computed by `choose_features`. -/
theorem featCount_asks {F : Nat} {sub : FeatSub K} {k : Int} (h : AsksFor F sub k) :
    (k < 0 ∧ featCount F sub = .error .valueError) ∨ (0 ≤ k ∧ ∃ c, featCount F sub = .ok c ∧ (c.getD F : Int) = k ∧ (c = none → k = F)) := by
  cases sub with
  | none =>
    right
    simp only [AsksFor] at h
    exact ⟨by omega, none, rfl, h.symm, fun _ => h⟩
  | sqrt =>
    right
    obtain ⟨h0, h1, h2⟩ := h
    refine ⟨h0, _, rfl, ?_, fun h => by cases h⟩
    obtain ⟨s1, s2⟩ := ceilSqrt_spec F
    simp only [Option.getD_some]
    apply le_antisymm
    · have : ceilSqrt F ≤ k.toNat := s2 _ (by
        zify
        rw [Int.toNat_of_nonneg h0]
        exact h1)
      omega
    · exact h2 _ (by omega) (by exact_mod_cast s1)
  | int m =>
    right
    simp only [AsksFor] at h
    exact ⟨by omega, some m, rfl, h.symm, fun h => by cases h⟩
  | float x =>
    obtain ⟨h1, h2⟩ := h
    have hk : ⌈x * (F : K)⌉ = k := by rw [Int.ceil_eq_iff]; exact ⟨h1, h2⟩
    unfold featCount
    simp only []
    rw [hk]
    by_cases hn : k < 0
    · left
      exact ⟨hn, by rw [if_pos hn]⟩
    · right
      rw [if_neg hn]
      refine ⟨by omega, _, rfl, ?_, fun h => by cases h⟩
      simp only [Option.getD_some]
      omega

/-- The converse: a count that was computed is the one asked for. -/
theorem asks_featCount {F : Nat} {sub : FeatSub K} {c : Option Nat} (h : featCount F sub = .ok c) : AsksFor F sub (c.getD F : Nat) := by
  cases sub with
  | none => cases h; rfl
  | sqrt =>
    cases h
    obtain ⟨s1, s2⟩ := ceilSqrt_spec F
    refine ⟨by omega, by exact_mod_cast s1, fun j h0 hj => ?_⟩
    have : ceilSqrt F ≤ j.toNat := s2 _ (by
      zify
      rw [Int.toNat_of_nonneg h0]
      exact hj)
    simp only [Option.getD_some]
    omega
  | int m => cases h; rfl
  | float x =>
    unfold featCount at h
    simp only [] at h
    by_cases hn : ⌈x * (F : K)⌉ < 0
    · rw [if_pos hn] at h; cases h
    · rw [if_neg hn] at h
      cases h
      simp only [AsksFor, Option.getD_some]
      have e : ((⌈x * (F : K)⌉.toNat : Nat) : Int) = ⌈x * (F : K)⌉ := Int.toNat_of_nonneg (by omega)
      rw [e]
      exact Int.ceil_eq_iff.1 rfl

theorem classToIdx_ok {l : List K} (h : l.Nodup) : ClassesOK (classToIdx l) := by
  unfold ClassesOK classToIdx
  constructor
  · rw [List.map_fst_zip (by simp)]
    exact h
  · rw [List.map_snd_zip (by simp), List.length_zip, List.length_range, min_self]

theorem classToIdx_fst (l : List K) : (classToIdx l).map Prod.fst = l := by
  unfold classToIdx
  rw [List.map_fst_zip (by simp)]

theorem countsLoop_keyError {d : ClassDict K} (hd : ClassesOK d) (labels : List K) {us : List K} {c : List Nat} (hc : c.length = d.length)
    (h : ∃ u ∈ us, u ∉ d.map Prod.fst) : countsLoop d labels us c = .error .keyError := by
  induction us generalizing c with
  | nil => obtain ⟨u, hu, _⟩ := h; cases hu
  | cons u us ih =>
    unfold countsLoop
    cases hl : d.lookup u with
    | none => rfl
    | some i =>
      simp only []
      have hp := mem_pair_of_lookup hl
      have hi : i < d.length := by
        have : i ∈ d.map Prod.snd := List.mem_map.2 ⟨(u, i), hp, rfl⟩
        rw [hd.2] at this
        simpa using this
      rw [if_pos (by omega)]
      apply ih (by rw [List.length_set]; exact hc)
      obtain ⟨v, hv, hn⟩ := h
      rcases List.mem_cons.1 hv with rfl | hv
      · exact absurd (List.mem_map.2 ⟨_, hp, rfl⟩) hn
      · exact ⟨v, hv, hn⟩

theorem discreteVals_spec (vs seen : List K) (hn : seen.Nodup) (hl : seen.length ≤ 10) :
    match discreteVals vs seen with
    | some r => r.Nodup ∧ (∀ x, x ∈ r ↔ x ∈ seen ∨ x ∈ vs) ∧ r.length ≤ 10
    | none => 10 < (seen ++ vs).dedup.length := by
  induction vs generalizing seen with
  | nil => simpa [discreteVals] using ⟨hn, hl⟩
  | cons v vs ih =>
    rw [discreteVals]
    by_cases hv : v ∈ seen
    · have e : (if seen.contains v = true then seen else seen ++ [v]) = seen := if_pos (by simpa using hv)
      simp only [e]
      rw [if_neg (by omega)]
      have := ih seen hn hl
      cases hd : discreteVals vs seen with
      | some r =>
        rw [hd] at this
        refine ⟨this.1, fun x => ?_, this.2.2⟩
        rw [this.2.1 x, List.mem_cons]
        constructor
        · rintro (h | h)
          · exact Or.inl h
          · exact Or.inr (Or.inr h)
        · rintro (h | rfl | h)
          · exact Or.inl h
          · exact Or.inl hv
          · exact Or.inr h
      | none =>
        rw [hd] at this
        refine lt_of_lt_of_le this ?_
        apply List.Subperm.length_le
        apply List.Nodup.subperm (List.nodup_dedup _)
        intro x
        simp only [List.mem_dedup, List.mem_append, List.mem_cons]
        tauto
    · have e : (if seen.contains v = true then seen else seen ++ [v]) = seen ++ [v] := if_neg (by simpa using hv)
      simp only [e]
      have hn' : (seen ++ [v]).Nodup := by
        rw [List.nodup_append]
        exact ⟨hn, List.nodup_singleton v, fun a ha b hb => by
          rw [List.mem_singleton] at hb
          subst hb
          rintro rfl
          exact hv ha⟩
      by_cases h10 : (seen ++ [v]).length > 10
      · rw [if_pos h10]
        simp only []
        refine lt_of_lt_of_le h10 ?_
        apply List.Subperm.length_le
        apply List.Nodup.subperm hn'
        intro x
        simp only [List.mem_dedup, List.mem_append, List.mem_cons, List.not_mem_nil, or_false]
        tauto
      · rw [if_neg h10]
        have := ih (seen ++ [v]) hn' (by omega)
        cases hd : discreteVals vs (seen ++ [v]) with
        | some r =>
          rw [hd] at this
          refine ⟨this.1, fun x => ?_, this.2.2⟩
          rw [this.2.1 x]
          simp only [List.mem_append, List.mem_cons, List.not_mem_nil, or_false]
          tauto
        | none =>
          rw [hd] at this
          simpa using this

/-- The values collected for a feature, or none if there are more than ten. -/
theorem discreteVals_nil (vs : List K) :
    match discreteVals vs [] with
    | some r => r.Nodup ∧ (∀ x, x ∈ r ↔ x ∈ vs) ∧ vs.dedup.length ≤ 10
    | none => 10 < vs.dedup.length := by
  have := discreteVals_spec vs [] List.nodup_nil (by simp)
  cases hd : discreteVals vs [] with
  | some r =>
    rw [hd] at this
    have hm : ∀ x, x ∈ r ↔ x ∈ vs := fun x => by rw [this.2.1 x]; simp
    refine ⟨this.1, hm, ?_⟩
    refine le_trans ?_ this.2.2
    apply List.Subperm.length_le
    apply List.Nodup.subperm (List.nodup_dedup _)
    intro x hx
    exact (hm x).2 (List.mem_dedup.1 hx)
  | none =>
    rw [hd] at this
    simpa using this

/-- The columns with few values, in order. -/
theorem lookup_filterMap {β : Type} (l : List Nat) (g : Nat → Option β) (f : Nat) (hn : l.Nodup) :
    (l.filterMap (fun j => (g j).map (fun v => (j, v)))).lookup f = if f ∈ l then g f else none := by
  induction l with
  | nil => rfl
  | cons a l ih =>
    rw [List.nodup_cons] at hn
    rw [List.filterMap_cons]
    by_cases hfa : f = a
    · subst hfa
      rw [if_pos List.mem_cons_self]
      cases hg : g f with
      | none =>
        simp only [Option.map_none]
        rw [ih hn.2, if_neg hn.1]
      | some v =>
        simp only [Option.map_some]
        rw [List.lookup_cons]
        simp
    · have e : (f ∈ a :: l) = (f ∈ l) := by simp [hfa]
      rw [if_congr (iff_of_eq e) rfl rfl, ← ih hn.2]
      cases hg : g a with
      | none => rfl
      | some v =>
        simp only [Option.map_some]
        rw [List.lookup_cons, beq_eq_false_iff_ne.2 hfa]

end FF
