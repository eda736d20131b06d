import Verif.Model.Importance
import Verif.Proofs.Hist
import Verif.Proofs.Criteria
import Mathlib.Data.Finset.Card
import Mathlib.Data.Finset.Dedup
import Mathlib.Algebra.BigOperators.Group.List.Basic
import Mathlib.Algebra.Order.BigOperators.Group.List
import Mathlib.Tactic.Linarith
import Mathlib.Tactic.Positivity
import Mathlib.Tactic.FieldSimp
import Mathlib.Tactic.Ring

/-!
# Lemmas about the stability measures
-/

namespace FF

set_option linter.unusedSectionVars false

variable {K : Type} [Field K] [LinearOrder K] [IsStrictOrderedRing K] [FloorRing K] [NpFun K] {G : Type}

theorem npInter_card (a b : List K) : (npInter a b).length = (a.toFinset ∩ b.toFinset).card := by
  have hn : (npInter a b).Nodup := (npUnique_nodup a).filter _
  rw [← List.toFinset_card_of_nodup hn]
  congr 1
  ext x
  simp [npInter, mem_npUnique]

theorem npUnion_card (a b : List K) : (npUnion a b).length = (a.toFinset ∪ b.toFinset).card := by
  have hn : (npUnion a b).Nodup := npUnique_nodup _
  rw [← List.toFinset_card_of_nodup hn]
  congr 1
  ext x
  simp [npUnion, mem_npUnique]

theorem jaccardTerm_comm (v1 v2 : List K) (i : Nat) : jaccardTerm v1 v2 i = jaccardTerm v2 v1 i := by
  unfold jaccardTerm
  rw [npInter_card, npInter_card, npUnion_card, npUnion_card, Finset.inter_comm, Finset.union_comm]

theorem jaccardTerm_bounds (v1 v2 : List K) (i : Nat) : 0 ≤ jaccardTerm v1 v2 i ∧ jaccardTerm v1 v2 i ≤ 1 := by
  unfold jaccardTerm
  rw [npInter_card, npUnion_card]
  refine ⟨by positivity, ?_⟩
  apply div_le_one_of_le₀ _ (by positivity)
  exact_mod_cast Finset.card_le_card (Finset.inter_subset_left.trans Finset.subset_union_left)

theorem jaccardTerm_self {v : List K} {i : Nat} (hv : v ≠ []) : jaccardTerm v v i = 1 := by
  unfold jaccardTerm
  rw [npInter_card, npUnion_card, Finset.inter_self, Finset.union_self]
  apply div_self
  have : (v.take (i + 1)).toFinset.card ≠ 0 := by
    rw [Finset.card_ne_zero]
    cases v with
    | nil => exact absurd rfl hv
    | cons x xs => exact ⟨x, by simp⟩
  exact_mod_cast this

theorem length_fromOne (n : Nat) : (fromOne n).length = n - 1 := by simp [fromOne]

theorem mem_fromOne {n i : Nat} : i ∈ fromOne n ↔ 1 ≤ i ∧ i < n := by
  simp only [fromOne, List.mem_map, List.mem_range]
  constructor
  · rintro ⟨a, h, rfl⟩; omega
  · intro h; exact ⟨i - 1, by omega, by omega⟩

theorem sum_map_le_length {l : List Nat} {f : Nat → K} (h : ∀ i ∈ l, f i ≤ 1) : (l.map f).sum ≤ (l.length : K) := by
  induction l with
  | nil => simp
  | cons a l ih =>
    simp only [List.map_cons, List.sum_cons, List.length_cons, Nat.cast_add, Nat.cast_one]
    have h1 := h a (by simp)
    have h2 := ih (fun i hi => h i (by simp [hi]))
    linarith

theorem sum_map_nonneg {l : List Nat} {f : Nat → K} (h : ∀ i ∈ l, 0 ≤ f i) : 0 ≤ (l.map f).sum :=
  List.sum_nonneg (by simpa using h)

theorem spearmanTerm_comm (v1 v2 : List K) (i : Nat) : spearmanTerm v1 v2 i = spearmanTerm v2 v1 i := by
  unfold spearmanTerm; ring

theorem kunchevaTerm_comm {v1 v2 : List K} (h : v1.length = v2.length) (i : Nat) : kunchevaTerm v1 v2 i = kunchevaTerm v2 v1 i := by
  unfold kunchevaTerm
  rw [npInter_card, npInter_card, Finset.inter_comm, h]

/-- Every metric is symmetric on rankings of equal length. -/
theorem pairwiseStability_comm (m : Metric) {v1 v2 : List K} (h : v1.length = v2.length) :
    pairwiseStability m v1 v2 = pairwiseStability m v2 v1 := by
  unfold pairwiseStability
  cases m with
  | jaccard => simp only [h]; rw [show jaccardTerm v1 v2 = jaccardTerm v2 v1 from funext (jaccardTerm_comm v1 v2)]
  | spearman => simp only [h]; rw [show spearmanTerm v1 v2 = spearmanTerm v2 v1 from funext (spearmanTerm_comm v1 v2)]
  | kuncheva => simp only [h]; rw [show kunchevaTerm v1 v2 = kunchevaTerm v2 v1 from funext (kunchevaTerm_comm h)]
  | other => rfl

theorem length_denseRank (row : List K) : (denseRank row).length = row.length := by simp [denseRank]

/-- On rankings of the same length a metric either always raises the same error or never raises. -/
theorem pairwiseStability_shape (m : Metric) (L : Nat) :
    (∃ e, ∀ v1 v2 : List K, v1.length = L → v2.length = L → pairwiseStability m v1 v2 = .error e) ∨
    (∃ f : List K → List K → K, (∀ v1 v2, v1.length = L → v2.length = L → f v1 v2 = f v2 v1) ∧
      ∀ v1 v2 : List K, v1.length = L → v2.length = L → pairwiseStability m v1 v2 = .ok (f v1 v2)) := by
  by_cases h : ∃ v1 v2 : List K, v1.length = L ∧ v2.length = L ∧ ∃ x, pairwiseStability m v1 v2 = .ok x
  · right
    have hall : ∀ v1 v2 : List K, v1.length = L → v2.length = L → ∃ x, pairwiseStability m v1 v2 = .ok x := by
      obtain ⟨a, b, ha, hb, x, hx⟩ := h
      intro v1 v2 h1 h2
      unfold pairwiseStability at hx ⊢
      cases m with
      | jaccard =>
        simp only [ha, h1] at hx ⊢
        split_ifs at hx ⊢
        exact ⟨_, rfl⟩
      | spearman =>
        simp only [ha, h1, hb, h2] at hx ⊢
        split_ifs at hx ⊢
        exact ⟨_, rfl⟩
      | kuncheva =>
        simp only [ha, h1] at hx ⊢
        split_ifs at hx ⊢
        exact ⟨_, rfl⟩
      | other => cases hx
    refine ⟨fun v1 v2 => match pairwiseStability m v1 v2 with | .ok x => x | .error _ => 0, ?_, ?_⟩
    · intro v1 v2 h1 h2
      simp only []
      rw [pairwiseStability_comm m (h1.trans h2.symm)]
    · intro v1 v2 h1 h2
      obtain ⟨x, hx⟩ := hall v1 v2 h1 h2
      simp only [hx]
  · left
    unfold pairwiseStability at h ⊢
    cases m with
    | jaccard =>
      by_cases h0 : L = 0
      · exact ⟨.zeroDivision, fun v1 v2 h1 _ => by simp only [h1]; rw [if_pos h0]⟩
      · exact absurd ⟨List.replicate L 0, List.replicate L 0, by simp, by simp, by simp [h0]⟩ h
    | spearman =>
      by_cases h1 : (fromOne L).any (fun i => decide (L ≤ i)) = true
      · exact ⟨.indexError, fun v1 v2 e1 e2 => by simp only [e1, e2]; rw [if_pos h1]⟩
      by_cases h2 : (L : K) * ((L : K) ^ 2 - 1) = 0
      · exact ⟨.zeroDivision, fun v1 v2 e1 e2 => by simp only [e1, e2]; rw [if_neg h1, if_pos h2]⟩
      · refine absurd ⟨List.replicate L 0, List.replicate L 0, by simp, by simp, ?_⟩ h
        simp only [List.length_replicate]
        rw [if_neg h1, if_neg h2]
        exact ⟨_, rfl⟩
    | kuncheva =>
      by_cases h0 : L = 0
      · exact ⟨.zeroDivision, fun v1 v2 h1 _ => by simp only [h1]; rw [if_pos h0]⟩
      · exact absurd ⟨List.replicate L 0, List.replicate L 0, by simp, by simp, by simp [h0]⟩ h
    | other => exact ⟨.notImplemented, fun _ _ _ _ => rfl⟩

/-- The sum of a function over the pairs of a list. -/
def pairSum {α : Type} (f : α → α → K) : List α → K
  | [] => 0
  | v :: vs => (vs.map (f v)).sum + pairSum f vs

theorem pairSum_perm {α : Type} {f : α → α → K} {l l' : List α} (hp : l.Perm l') (hf : ∀ a ∈ l, ∀ b ∈ l, f a b = f b a) :
    pairSum f l = pairSum f l' := by
  induction hp with
  | nil => rfl
  | cons x h ih =>
    simp only [pairSum]
    rw [ih (fun a ha b hb => hf a (by simp [ha]) b (by simp [hb])), (h.map (f x)).sum_eq]
  | swap x y l =>
    simp only [pairSum, List.map_cons, List.sum_cons]
    rw [hf y (by simp) x (by simp)]
    ring
  | trans h1 h2 ih1 ih2 =>
    rw [ih1 hf, ih2 (fun a ha b hb => hf a (h1.mem_iff.2 ha) b (h1.mem_iff.2 hb))]

theorem rowStability_ok {m : Metric} {L : Nat} {f : List K → List K → K}
    (hf : ∀ v1 v2 : List K, v1.length = L → v2.length = L → pairwiseStability m v1 v2 = .ok (f v1 v2)) (v : List K) (hv : v.length = L) :
    ∀ l : List (List K), (∀ u ∈ l, u.length = L) → rowStability m v l = .ok ((l.map (f v)).sum) := by
  intro l
  induction l with
  | nil => intro _; rfl
  | cons u us ih =>
    intro h
    unfold rowStability
    rw [hf v u hv (h u (by simp)), ih (fun x hx => h x (by simp [hx]))]
    rfl

theorem allStability_ok {m : Metric} {L : Nat} {f : List K → List K → K}
    (hf : ∀ v1 v2 : List K, v1.length = L → v2.length = L → pairwiseStability m v1 v2 = .ok (f v1 v2)) :
    ∀ l : List (List K), (∀ u ∈ l, u.length = L) → allStability m l = .ok (pairSum f l) := by
  intro l
  induction l with
  | nil => intro _; rfl
  | cons u us ih =>
    intro h
    unfold allStability
    rw [rowStability_ok hf u (h u (by simp)) us (fun x hx => h x (by simp [hx])), ih (fun x hx => h x (by simp [hx]))]
    rfl

theorem allStability_error {m : Metric} {L : Nat} {e : Err}
    (hf : ∀ v1 v2 : List K, v1.length = L → v2.length = L → pairwiseStability m v1 v2 = .error e)
    (l : List (List K)) (h : ∀ u ∈ l, u.length = L) (hl : 2 ≤ l.length) : allStability m l = .error e := by
  match l, hl with
  | u :: v :: us, _ =>
    unfold allStability rowStability
    rw [hf u v (h u (by simp)) (h v (by simp))]

theorem sum_ite_countP {α : Type} (p : α → Prop) [DecidablePred p] (l : List α) :
    (l.map (fun a => if p a then 1 else 0)).sum = l.countP (fun a => decide (p a)) := by
  induction l with
  | nil => rfl
  | cons a l ih =>
    rw [List.map_cons, List.sum_cons, ih, List.countP_cons]
    by_cases h : p a <;> simp [h, Nat.add_comm]

theorem sum_map_eq_zero {l : List Nat} {f : Nat → K} (h : ∀ i ∈ l, 0 ≤ f i) : (l.map f).sum = 0 ↔ ∀ i ∈ l, f i = 0 := by
  induction l with
  | nil => simp
  | cons a l ih =>
    have h1 := h a (by simp)
    have h2 := sum_map_nonneg (fun i hi => h i (by simp [hi]) : ∀ i ∈ l, 0 ≤ f i)
    have h3 := ih (fun i hi => h i (by simp [hi]))
    rw [List.map_cons, List.sum_cons]
    constructor
    · intro h4 i hi
      rcases List.mem_cons.1 hi with rfl | hi
      · linarith
      · exact h3.1 (by linarith) i hi
    · intro h4
      rw [h4 a (by simp), h3.2 (fun i hi => h4 i (by simp [hi])), zero_add]

end FF
