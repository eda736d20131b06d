import Verif.Proofs.Stability
import Verif.Model.Instances

/-!
# Stability of rankings and importances (C66-C70)
-/

namespace FF

set_option linter.unusedSectionVars false

variable {K : Type} [Field K] [LinearOrder K] [IsStrictOrderedRing K] [FloorRing K] [NpFun K]

/-! ### C66 -/

/-- C66. The Jaccard stability of two rankings of the same length `L > 0` exists, lies between 0 and 1, and does not change when the
rankings are swapped. -/
theorem C66_jaccard (v1 v2 : List K) (hlen : v1.length = v2.length) (hne : v1 ≠ []) :
    ∃ s, pairwiseStability .jaccard v1 v2 = .ok s ∧ pairwiseStability .jaccard v2 v1 = .ok s ∧ 0 ≤ s ∧ s ≤ 1 := by
  have h0 : v1.length ≠ 0 := by simpa using hne
  have hpos : (0 : K) < (v1.length : K) := by exact_mod_cast Nat.pos_of_ne_zero h0
  have h1 : pairwiseStability .jaccard v1 v2 = .ok (((fromOne v1.length).map (jaccardTerm v1 v2)).sum / (v1.length : K)) := by
    show (if v1.length = 0 then _ else _) = _
    rw [if_neg h0]
  refine ⟨_, h1, by rw [← pairwiseStability_comm .jaccard hlen]; exact h1, ?_, ?_⟩
  · exact div_nonneg (sum_map_nonneg (fun i _ => (jaccardTerm_bounds v1 v2 i).1)) hpos.le
  · rw [div_le_one hpos]
    refine (sum_map_le_length (fun i _ => (jaccardTerm_bounds v1 v2 i).2)).trans ?_
    rw [length_fromOne]
    exact_mod_cast Nat.sub_le _ _

/-- C66: what the Jaccard stability is. With `A` and `B` the sets of the first `i + 1` entries of the rankings, it adds up
`|A ∩ B| / |A ∪ B|` for `i = 1, ..., L - 1` and divides by `L`. -/
theorem C66_value (v1 v2 : List K) (hne : v1 ≠ []) :
    pairwiseStability .jaccard v1 v2 = .ok (((List.range (v1.length - 1)).map (fun i =>
      (((v1.take (i + 2)).toFinset ∩ (v2.take (i + 2)).toFinset).card : K) /
        (((v1.take (i + 2)).toFinset ∪ (v2.take (i + 2)).toFinset).card : K))).sum / (v1.length : K)) := by
  have h0 : v1.length ≠ 0 := by simpa using hne
  show (if v1.length = 0 then _ else _) = _
  rw [if_neg h0]
  unfold fromOne
  rw [List.map_map]
  have : (jaccardTerm v1 v2 ∘ (· + 1)) = (fun i : Nat => (((v1.take (i + 2)).toFinset ∩ (v2.take (i + 2)).toFinset).card : K) /
        (((v1.take (i + 2)).toFinset ∪ (v2.take (i + 2)).toFinset).card : K)) := by
    funext i
    simp only [Function.comp_apply, jaccardTerm]
    rw [npInter_card, npUnion_card]
  rw [this]

/-- Two rankings of length four that agree on the last prefix only. -/
example : pairwiseStability .jaccard [1, 2, 3, 4] [3, 4, 1, (2 : ℚ)] = .ok (3 / 8) ∧
    pairwiseStability .jaccard [3, 4, 1, (2 : ℚ)] [1, 2, 3, 4] = .ok (3 / 8) := by
  decide +kernel

/-! ### C67 -/

/-- C67, in part. The Spearman stability of a ranking of length at least two with itself is 1. -/
theorem C67_spearman_partial (v : List K) (hlen : 2 ≤ v.length) : pairwiseStability .spearman v v = .ok 1 := by
  have h1 : ¬ ((fromOne v.length).any (fun i => decide (v.length ≤ i)) = true) := by
    rw [Bool.not_eq_true, List.any_eq_false]
    intro i hi
    have := (mem_fromOne.1 hi).2
    simpa using this
  have h2 : (v.length : K) * ((v.length : K) ^ 2 - 1) ≠ 0 := by
    have : (2 : K) ≤ (v.length : K) := by exact_mod_cast hlen
    have h3 : (0 : K) < (v.length : K) * ((v.length : K) ^ 2 - 1) := by
      apply mul_pos <;> nlinarith
    exact h3.ne'
  show (if _ then _ else _) = _
  rw [if_neg h1, if_neg h2]
  have : (fromOne v.length).map (spearmanTerm v v) = (fromOne v.length).map (fun _ => (0 : K)) :=
    List.map_congr_left (fun i _ => by unfold spearmanTerm; simp)
  rw [this]
  simp

/-- C67 fails for the Jaccard metric, for every ranking: the stability of a ranking of length `L` with itself is `(L - 1) / L`. -/
theorem C67_refuted_jaccard (v : List K) (hne : v ≠ []) :
    pairwiseStability .jaccard v v = .ok (((v.length : K) - 1) / (v.length : K)) ∧ ((v.length : K) - 1) / (v.length : K) < 1 := by
  have h0 : v.length ≠ 0 := by simpa using hne
  have hpos : (0 : K) < (v.length : K) := by exact_mod_cast Nat.pos_of_ne_zero h0
  refine ⟨?_, by rw [div_lt_one hpos]; linarith⟩
  show (if v.length = 0 then _ else _) = _
  rw [if_neg h0]
  have : (fromOne v.length).map (jaccardTerm v v) = (fromOne v.length).map (fun _ => (1 : K)) :=
    List.map_congr_left (fun i _ => jaccardTerm_self hne)
  rw [this]
  simp only [List.map_const', List.sum_replicate, length_fromOne, nsmul_eq_mul, mul_one]
  rw [Nat.cast_sub (by omega), Nat.cast_one]

/-- C67 fails for the Kuncheva metric too: the stability of a ranking without ties, of length at least two, with itself is negative. -/
theorem C67_refuted_kuncheva (v : List K) (hlen : 2 ≤ v.length) (hn : v.Nodup) :
    ∃ s, pairwiseStability .kuncheva v v = .ok s ∧ s < 0 := by
  have h0 : v.length ≠ 0 := by omega
  have hL : (2 : K) ≤ (v.length : K) := by exact_mod_cast hlen
  have hpos : (0 : K) < (v.length : K) := by linarith
  refine ⟨_, (if_neg h0 : (if v.length = 0 then (Except.error Err.zeroDivision : Except Err K) else _) = _), ?_⟩
  apply div_neg_of_neg_of_pos _ hpos
  have hterm : ∀ i ∈ fromOne v.length, kunchevaTerm v v i < 0 := by
    intro i hi
    obtain ⟨i1, i2⟩ := mem_fromOne.1 hi
    have hi1 : (1 : K) ≤ (i : K) := by exact_mod_cast i1
    have hi2 : (i : K) ≤ (v.length : K) := by exact_mod_cast i2.le
    unfold kunchevaTerm
    rw [npInter_card, Finset.inter_self, List.toFinset_card_of_nodup (hn.sublist (List.take_sublist _ _)), List.length_take,
      Nat.min_eq_left (by omega)]
    apply div_neg_of_pos_of_neg
    · have : (i : K) ^ 2 / (v.length : K) ≤ (i : K) := by
        rw [div_le_iff₀ hpos]; nlinarith
      push_cast
      linarith
    · nlinarith
  have hne : fromOne v.length ≠ [] := by
    intro h
    have := length_fromOne v.length
    rw [h] at this
    simp at this
    omega
  obtain ⟨a, l, hl⟩ := List.exists_cons_of_ne_nil hne
  rw [hl] at hterm ⊢
  simp only [List.map_cons, List.sum_cons]
  have h1 := hterm a (by simp)
  have h2 : (l.map (kunchevaTerm v v)).sum ≤ (l.map (fun _ => (0 : K))).sum :=
    List.sum_le_sum (fun i hi => (hterm i (by simp [hi])).le)
  rw [List.map_const', List.sum_replicate, smul_zero] at h2
  linarith

/-- The three metrics on `[1, 2, 3]` and itself: only the second is 1. -/
theorem C67_refuted : pairwiseStability .jaccard [1, 2, 3] [1, 2, (3 : ℚ)] = .ok (2 / 3) ∧
    pairwiseStability .spearman [1, 2, 3] [1, 2, (3 : ℚ)] = .ok 1 ∧
    pairwiseStability .kuncheva [1, 2, 3] [1, 2, (3 : ℚ)] = .ok (-1 / 3) := by
  decide +kernel

/-! ### C68 -/

/-- C68. The Spearman stability of two rankings of the same length, at least two, exists, is at most 1, and does not change when the
rankings are swapped. -/
theorem C68_spearman (v1 v2 : List K) (hlen : v1.length = v2.length) (h2 : 2 ≤ v1.length) :
    ∃ s, pairwiseStability .spearman v1 v2 = .ok s ∧ pairwiseStability .spearman v2 v1 = .ok s ∧ s ≤ 1 := by
  have h1 : ¬ ((fromOne v1.length).any (fun i => decide (v2.length ≤ i)) = true) := by
    rw [Bool.not_eq_true, List.any_eq_false]
    intro i hi
    have := (mem_fromOne.1 hi).2
    rw [hlen] at this
    simpa using this
  have h3 : (0 : K) < (v1.length : K) * ((v1.length : K) ^ 2 - 1) := by
    have : (2 : K) ≤ (v1.length : K) := by exact_mod_cast h2
    apply mul_pos <;> nlinarith
  have h4 : pairwiseStability .spearman v1 v2 = .ok (1 - 6 * ((fromOne v1.length).map (spearmanTerm v1 v2)).sum /
      ((v1.length : K) * ((v1.length : K) ^ 2 - 1))) := by
    show (if _ then _ else _) = _
    rw [if_neg h1, if_neg h3.ne']
  refine ⟨_, h4, by rw [← pairwiseStability_comm .spearman hlen]; exact h4, ?_⟩
  have h5 : (0 : K) ≤ ((fromOne v1.length).map (spearmanTerm v1 v2)).sum :=
    sum_map_nonneg (fun i _ => by unfold spearmanTerm; positivity)
  have h6 : 0 ≤ 6 * ((fromOne v1.length).map (spearmanTerm v1 v2)).sum / ((v1.length : K) * ((v1.length : K) ^ 2 - 1)) :=
    div_nonneg (by linarith) h3.le
  linarith

example : pairwiseStability .spearman [1, 2, 3, 4] [3, 4, 1, (2 : ℚ)] = .ok (-1 / 5) ∧
    pairwiseStability .spearman [3, 4, 1, (2 : ℚ)] [1, 2, 3, 4] = .ok (-1 / 5) := by
  decide +kernel

/-! ### C69 -/

/-- `S` is a set of `k` most important features of a row: no feature outside `S` is more important than one in `S`. -/
structure IsTop (row : List K) (k : Nat) (S : Finset Nat) : Prop where
  sub : ∀ a ∈ S, a < row.length
  card : S.card = k
  best : ∀ a ∈ S, ∀ b < row.length, b ∉ S → row.getD b 0 ≤ row.getD a 0

/-- If the features in `S` are strictly more important than the others, every set of most important features is `S`. -/
theorem IsTop.unique {row : List K} {k : Nat} {T S : Finset Nat} (h : IsTop row k T) {F : Nat} (hF : row.length = F) (hS : S.card = k)
    (hSF : ∀ a ∈ S, a < F) (hbest : ∀ a ∈ S, ∀ b < F, b ∉ S → row.getD b 0 < row.getD a 0) : T = S := by
  apply Finset.eq_of_subset_of_card_le _ (by rw [hS, h.card])
  intro b hb
  by_contra hbS
  have hcard : ¬ S ⊆ T := by
    intro hsub
    have := Finset.eq_of_subset_of_card_le hsub (by rw [hS, h.card])
    exact hbS (this ▸ hb)
  obtain ⟨a, ha, haT⟩ := Finset.not_subset.1 hcard
  have h1 := h.best b hb a (by rw [hF]; exact hSF a ha) haT
  have h2 := hbest a ha b (by rw [← hF]; exact h.sub b hb) hbS
  exact absurd h1 (not_le.2 h2)

/-- How often feature `f` is among the most important ones. -/
def topFreq (sel : List K → Finset Nat) (imp : List (List K)) (f : Nat) : K :=
  (imp.countP (fun row => decide (f ∈ sel row)) : K) / (imp.length : K)

/-- C69: what the frequency stability is. With `N ≥ 2` rows of `F` non-negative importances and `0 < k < F`, there are sets `sel row` of
`k` most important features of each row, so that with `p f` the fraction of rows that select `f` the result is
`1 - (Σ_f N / (N - 1) * p f * (1 - p f) / F) / (k / F * (1 - k / F))`. -/
theorem C69_value (sortIdx : List K → List Nat) (hsort : IsArgsortDesc sortIdx) (imp : List (List K)) (F k : Nat)
    (hF : ∀ row ∈ imp, row.length = F) (hN : 2 ≤ imp.length) (hpos : ∀ row ∈ imp, ∀ x ∈ row, 0 ≤ x) (hk : 0 < k) (hkF : k < F) :
    ∃ sel : List K → Finset Nat, (∀ row ∈ imp, IsTop row k (sel row)) ∧
      stabilityFreq sortIdx imp k = .ok (.fin (1 - (((List.range F).map (fun f =>
        (imp.length : K) / ((imp.length : K) - 1) * (topFreq sel imp f * (1 - topFreq sel imp f)))).sum / (F : K)) /
          ((k : K) / (F : K) * (1 - (k : K) / (F : K))))) := by
  have hNK : (2 : K) ≤ (imp.length : K) := by exact_mod_cast hN
  have hFK : (0 : K) < (F : K) := by exact_mod_cast (by omega : 0 < F)
  have hkK : (0 : K) < (k : K) := by exact_mod_cast hk
  have hkFK : (k : K) < (F : K) := by exact_mod_cast hkF
  refine ⟨fun row => ((sortIdx row).take k).toFinset, ?_, ?_⟩
  · intro row hrow
    have hp := hsort.perm row
    have hnd : (sortIdx row).Nodup := hp.nodup_iff.2 List.nodup_range
    have hlen : (sortIdx row).length = F := by rw [hp.length_eq, List.length_range, hF row hrow]
    refine ⟨?_, ?_, ?_⟩
    · intro a ha
      exact List.mem_range.1 (hp.mem_iff.1 (List.mem_of_mem_take (List.mem_toFinset.1 ha)))
    · rw [List.toFinset_card_of_nodup (hnd.sublist (List.take_sublist _ _)), List.length_take, hlen]
      omega
    · intro a ha b hb hbn
      have h1 : b ∈ sortIdx row := hp.mem_iff.2 (List.mem_range.2 hb)
      rw [← List.take_append_drop k (sortIdx row), List.mem_append] at h1
      have h2 : b ∈ (sortIdx row).drop k := h1.resolve_left (fun h => hbn (List.mem_toFinset.2 h))
      have h3 := hsort.sorted row
      rw [← List.take_append_drop k (sortIdx row), List.pairwise_append] at h3
      exact h3.2.2 a (List.mem_toFinset.1 ha) b h2
  · obtain ⟨row0, rest, himp⟩ := List.exists_cons_of_ne_nil (show imp ≠ [] by rintro rfl; simp at hN)
    have hrow0 : row0.length = F := hF row0 (by rw [himp]; simp)
    have htop : ∀ row ∈ imp, topIdcs sortIdx (k : Int) row = ((sortIdx row).take k).map some := by
      intro row hrow
      unfold topIdcs sliceLen
      rw [if_pos (by omega), Int.toNat_natCast]
      apply List.map_congr_left
      intro i hi
      have hi' := List.mem_range.1 ((hsort.perm row).mem_iff.1 (List.mem_of_mem_take hi))
      rw [if_pos]
      rw [List.getD_eq_getElem _ _ hi']
      exact hpos row hrow _ (List.getElem_mem _)
    have hbest : imp.map (topIdcs sortIdx (k : Int)) = imp.map (fun row => ((sortIdx row).take k).map some) :=
      List.map_congr_left htop
    have hfreq : ∀ f, selFreq (K := K) (imp.map (topIdcs sortIdx (k : Int))) f =
        topFreq (fun row => ((sortIdx row).take k).toFinset) imp f := by
      intro f
      rw [hbest]
      unfold selFreq topFreq
      rw [List.length_map, List.map_map]
      congr 2
      have : ∀ row : List K, ((fun r : List (Option Nat) => r.countP (fun x => decide (x = some f))) ∘
          (fun row => ((sortIdx row).take k).map some)) row = if f ∈ ((sortIdx row).take k).toFinset then 1 else 0 := by
        intro row
        simp only [Function.comp_apply, List.countP_map]
        have hnd : ((sortIdx row).take k).Nodup :=
          ((hsort.perm row).nodup_iff.2 List.nodup_range).sublist (List.take_sublist _ _)
        rw [show ((fun x => decide (x = some f)) ∘ (some : Nat → Option Nat)) = (fun i => i == f) from by
          funext i; by_cases h : i = f <;> simp [h]]
        rw [show List.countP (fun i => i == f) ((sortIdx row).take k) = List.count f ((sortIdx row).take k) from rfl, hnd.count]
        simp only [List.mem_toFinset]
      rw [List.map_congr_left (fun row _ => this row)]
      exact sum_ite_countP _ _
    have hdbar : (((imp.map (topIdcs sortIdx (k : Int))).map (fun r => r.countP Option.isSome)).sum : Nat) = imp.length * k := by
      rw [hbest, List.map_map]
      have : ∀ row ∈ imp, ((fun r : List (Option Nat) => r.countP Option.isSome) ∘ (fun row => ((sortIdx row).take k).map some)) row = k := by
        intro row hrow
        simp only [Function.comp_apply, List.countP_map]
        have hlen : (sortIdx row).length = F := by rw [(hsort.perm row).length_eq, List.length_range, hF row hrow]
        rw [show (Option.isSome ∘ (some : Nat → Option Nat)) = (fun _ => true) from rfl, List.countP_true, List.length_take, hlen]
        omega
      rw [List.map_congr_left this]
      simp
    have hcv : ((List.range F).map (fun i => (XF.fin ((imp.length : K) * selFreq (imp.map (topIdcs sortIdx (k : Int))) i *
        (1 - selFreq (imp.map (topIdcs sortIdx (k : Int))) i))).div (.fin ((imp.length : K) - 1)))) =
        ((List.range F).map (fun f => (imp.length : K) / ((imp.length : K) - 1) *
          (topFreq (fun row => ((sortIdx row).take k).toFinset) imp f *
            (1 - topFreq (fun row => ((sortIdx row).take k).toFinset) imp f)))).map XF.fin := by
      rw [List.map_map]
      apply List.map_congr_left
      intro f _
      rw [hfreq f]
      show (if (imp.length : K) - 1 = 0 then _ else _) = _
      rw [if_neg (by intro h; linarith)]
      simp only [Function.comp_apply]
      congr 1
      ring
    have hval : stabilityFreq sortIdx imp (k : Int) = .ok ((XF.fin 1).sub (((XF.sum ((List.range F).map (fun i =>
        (XF.fin ((imp.length : K) * selFreq (imp.map (topIdcs sortIdx (k : Int))) i *
        (1 - selFreq (imp.map (topIdcs sortIdx (k : Int))) i))).div (.fin ((imp.length : K) - 1))))).div (.fin (F : K))).div
        (.fin (((((imp.map (topIdcs sortIdx (k : Int))).map (fun r => r.countP Option.isSome)).sum : Nat) : K) / (imp.length : K) *
          (1 - ((((imp.map (topIdcs sortIdx (k : Int))).map (fun r => r.countP Option.isSome)).sum : Nat) : K) / (imp.length : K) /
            (F : K)) / (F : K))))) := by
      conv_lhs => rw [himp]
      unfold stabilityFreq
      simp only []
      rw [if_neg (by rw [hrow0]; push Not; exact_mod_cast hkF), if_neg (by omega), hrow0, ← himp]
    rw [hval, hcv, XF.sum_fin, hdbar]
    have hd : ((imp.length * k : Nat) : K) / (imp.length : K) = (k : K) := by
      push_cast
      field_simp
    rw [hd]
    have hden : (k : K) * (1 - (k : K) / (F : K)) / (F : K) = (k : K) / (F : K) * (1 - (k : K) / (F : K)) := by ring
    rw [hden]
    have hden0 : (k : K) / (F : K) * (1 - (k : K) / (F : K)) ≠ 0 := by
      have h1 : (k : K) / (F : K) < 1 := by rw [div_lt_one hFK]; exact hkFK
      exact (mul_pos (div_pos hkK hFK) (by linarith)).ne'
    rw [XF.div_fin _ _ hFK.ne', XF.div_fin _ _ hden0]
    show Except.ok (XF.fin (1 + -_)) = _
    rw [← sub_eq_add_neg]

/-- C69: a negative `k` counts from the end, so that asking for `-m` features is asking for `F - m`. -/
theorem C69_negative (sortIdx : List K → List Nat) (imp : List (List K)) (F m : Nat) (hF : ∀ row ∈ imp, row.length = F) (hm : 1 ≤ m) (hmF : m ≤ F) :
    stabilityFreq sortIdx imp (-(m : Int)) = stabilityFreq sortIdx imp ((F - m : Nat) : Int) := by
  have htop : imp.map (topIdcs sortIdx (-(m : Int))) = imp.map (topIdcs sortIdx ((F - m : Nat) : Int)) := by
    apply List.map_congr_left
    intro row hrow
    unfold topIdcs sliceLen
    rw [if_neg (by omega), if_pos (by omega), hF row hrow]
    congr 2
    omega
  cases imp with
  | nil => rfl
  | cons row0 rest =>
    have h0 := hF row0 (by simp)
    unfold stabilityFreq
    simp only [htop]
    have e1 : ¬ ¬ (-(m : Int) < (row0.length : Int)) := by rw [h0]; omega
    have e2 : ¬ ¬ (((F - m : Nat) : Int) < (row0.length : Int)) := by rw [h0]; omega
    rw [if_neg e1, if_neg e2]

theorem topFreq_bounds (sel : List K → Finset Nat) (imp : List (List K)) (f : Nat) : 0 ≤ topFreq sel imp f ∧ topFreq sel imp f ≤ 1 := by
  unfold topFreq
  refine ⟨by positivity, div_le_one_of_le₀ ?_ (by positivity)⟩
  exact_mod_cast List.countP_le_length

/-- C69. With at least two rows of `F` non-negative importances and `0 < k < F` the frequency stability exists and is at most 1; it is 1
exactly if the same `k` most important features were selected in all rows. -/
theorem C69_bounds (sortIdx : List K → List Nat) (hsort : IsArgsortDesc sortIdx) (imp : List (List K)) (F k : Nat)
    (hF : ∀ row ∈ imp, row.length = F) (hN : 2 ≤ imp.length) (hpos : ∀ row ∈ imp, ∀ x ∈ row, 0 ≤ x) (hk : 0 < k) (hkF : k < F) :
    ∃ (sel : List K → Finset Nat) (s : K), (∀ row ∈ imp, IsTop row k (sel row)) ∧ stabilityFreq sortIdx imp k = .ok (.fin s) ∧ s ≤ 1 ∧
      (s = 1 ↔ ∀ r ∈ imp, ∀ r' ∈ imp, sel r = sel r') := by
  obtain ⟨sel, h1, h2⟩ := C69_value sortIdx hsort imp F k hF hN hpos hk hkF
  have hNK : (2 : K) ≤ (imp.length : K) := by exact_mod_cast hN
  have hFK : (0 : K) < (F : K) := by exact_mod_cast (by omega : 0 < F)
  have hkK : (0 : K) < (k : K) := by exact_mod_cast hk
  have hkFK : (k : K) < (F : K) := by exact_mod_cast hkF
  have hden : (0 : K) < (k : K) / (F : K) * (1 - (k : K) / (F : K)) := by
    have h1 : (k : K) / (F : K) < 1 := by rw [div_lt_one hFK]; exact hkFK
    exact mul_pos (div_pos hkK hFK) (by linarith)
  have hc : (0 : K) < (imp.length : K) / ((imp.length : K) - 1) := div_pos (by linarith) (by linarith)
  have hterm : ∀ f ∈ List.range F, 0 ≤ (imp.length : K) / ((imp.length : K) - 1) * (topFreq sel imp f * (1 - topFreq sel imp f)) := by
    intro f _
    obtain ⟨b1, b2⟩ := topFreq_bounds sel imp f
    exact mul_nonneg hc.le (mul_nonneg b1 (by linarith))
  have hsum := sum_map_nonneg hterm
  refine ⟨sel, _, h1, h2, ?_, ?_⟩
  · have := div_nonneg (div_nonneg hsum hFK.le) hden.le
    linarith
  · have h3 : ∀ X : K, (1 - X / (F : K) / ((k : K) / (F : K) * (1 - (k : K) / (F : K))) = 1 ↔ X = 0) := by
      intro X
      rw [sub_eq_self, div_eq_zero_iff, div_eq_zero_iff]
      exact ⟨fun h => (h.resolve_right hden.ne').resolve_right hFK.ne', fun h => Or.inl (Or.inl h)⟩
    rw [h3, sum_map_eq_zero hterm]
    have hlen : (imp.length : K) ≠ 0 := by intro h; linarith
    constructor
    · intro h4
      have hsub : ∀ r ∈ imp, ∀ r' ∈ imp, sel r ⊆ sel r' := by
        intro r hr r' hr' a ha
        have h5 := h4 a (List.mem_range.2 (by rw [← hF r hr]; exact (h1 r hr).sub a ha))
        rcases mul_eq_zero.1 ((mul_eq_zero.1 h5).resolve_left hc.ne') with h6 | h6
        · exfalso
          unfold topFreq at h6
          have h7 : ((imp.countP (fun row => decide (a ∈ sel row)) : Nat) : K) = 0 := (div_eq_zero_iff.1 h6).resolve_right hlen
          have h8 : imp.countP (fun row => decide (a ∈ sel row)) = 0 := by exact_mod_cast h7
          rw [List.countP_eq_zero] at h8
          exact h8 r hr (by simpa using ha)
        · have h7 : ((imp.countP (fun row => decide (a ∈ sel row)) : Nat) : K) = (imp.length : K) := by
            unfold topFreq at h6
            rw [sub_eq_zero, eq_comm, div_eq_one_iff_eq hlen] at h6
            exact h6
          have h8 : imp.countP (fun row => decide (a ∈ sel row)) = imp.length := by exact_mod_cast h7
          rw [List.countP_eq_length] at h8
          simpa using h8 r' hr'
      exact fun r hr r' hr' => Finset.Subset.antisymm (hsub r hr r' hr') (hsub r' hr' r hr)
    · intro h4 f _
      by_cases hex : ∃ r ∈ imp, f ∈ sel r
      · obtain ⟨r, hr, hfr⟩ := hex
        have h8 : imp.countP (fun row => decide (f ∈ sel row)) = imp.length := by
          rw [List.countP_eq_length]
          intro r' hr'
          rw [← h4 r hr r' hr']
          simpa using hfr
        have : topFreq sel imp f = 1 := by
          unfold topFreq
          rw [h8, div_self hlen]
        rw [this, sub_self, mul_zero, mul_zero]
      · have h8 : imp.countP (fun row => decide (f ∈ sel row)) = 0 := by
          rw [List.countP_eq_zero]
          intro r hr h
          exact hex ⟨r, hr, by simpa using h⟩
        have : topFreq sel imp f = 0 := by
          unfold topFreq
          rw [h8, Nat.cast_zero, zero_div]
        rw [this, zero_mul, mul_zero]

/-- C69, agreement: if the same `k` features are strictly the most important ones in every row, the frequency stability is 1. -/
theorem C69_agree (sortIdx : List K → List Nat) (hsort : IsArgsortDesc sortIdx) (imp : List (List K)) (F k : Nat)
    (hF : ∀ row ∈ imp, row.length = F) (hN : 2 ≤ imp.length) (hpos : ∀ row ∈ imp, ∀ x ∈ row, 0 ≤ x) (hk : 0 < k) (hkF : k < F)
    (S : Finset Nat) (hS : S.card = k) (hSF : ∀ a ∈ S, a < F)
    (hbest : ∀ row ∈ imp, ∀ a ∈ S, ∀ b < F, b ∉ S → row.getD b 0 < row.getD a 0) :
    stabilityFreq sortIdx imp k = .ok (.fin 1) := by
  obtain ⟨sel, s, h1, h2, _, h4⟩ := C69_bounds sortIdx hsort imp F k hF hN hpos hk hkF
  have hsel : ∀ row ∈ imp, sel row = S := fun row hrow => (h1 row hrow).unique (hF row hrow) hS hSF (hbest row hrow)
  rw [h2, h4.2 (fun r hr r' hr' => by rw [hsel r hr, hsel r' hr'])]

/-- A stable argsort, for examples. -/
def sortDesc (row : List K) : List Nat := (List.range row.length).insertionSort (fun a b => row.getD b 0 ≤ row.getD a 0)

theorem sortDesc_ok : IsArgsortDesc (sortDesc (K := K)) where
  perm := fun row => List.perm_insertionSort _ _
  sorted := fun row => by
    haveI : Std.Total (fun a b : Nat => row.getD b 0 ≤ row.getD a 0) := ⟨fun a b => le_total _ _⟩
    haveI : IsTrans Nat (fun a b : Nat => row.getD b 0 ≤ row.getD a 0) := ⟨fun a b c h1 h2 => le_trans h2 h1⟩
    exact List.pairwise_insertionSort _ _

/-- Three rows that select `{1, 2}`, `{1, 2}` and `{0, 1}` of three features; and three rows that agree. -/
example : stabilityFreq sortDesc [[1, 5, 3], [0, 1, 2], [4, 4, (1 : ℚ)]] 2 = .ok (.fin 0) ∧
    stabilityFreq sortDesc [[1, 5, 3], [0, 1, 2], [1, 4, (3 : ℚ)]] 2 = .ok (.fin 1) := by
  decide +kernel

/-! ### C70 -/

/-- C70. The pairwise stability does not depend on the order of the rows, for every metric: it is the same number, or the same error. -/
theorem C70_order (m : Metric) (imp imp' : List (List K)) (F : Nat) (hF : ∀ row ∈ imp, row.length = F) (hp : imp.Perm imp') :
    stabilityPairwise m imp = stabilityPairwise m imp' := by
  have hl := hp.length_eq
  have hF' : ∀ row ∈ imp', row.length = F := fun r hr => hF r (hp.mem_iff.2 hr)
  have hr : ∀ l : List (List K), (∀ row ∈ l, row.length = F) → ∀ u ∈ l.map denseRank, u.length = F := by
    intro l h u hu
    obtain ⟨r, hr, rfl⟩ := List.mem_map.1 hu
    rw [length_denseRank]; exact h r hr
  have hnil : imp = [] ↔ imp' = [] := by
    rw [← List.length_eq_zero_iff, ← List.length_eq_zero_iff, hl]
  have hall : allStability m (imp.map denseRank) = allStability m (imp'.map denseRank) := by
    rcases pairwiseStability_shape (K := K) m F with ⟨e, he⟩ | ⟨f, hs, hf⟩
    · by_cases h2 : 2 ≤ imp.length
      · rw [allStability_error he _ (hr _ hF) (by simpa using h2), allStability_error he _ (hr _ hF') (by simpa [← hl] using h2)]
      · match imp, imp', hl, h2, hp with
        | [], [], _, _, _ => rfl
        | [a], [b], _, _, hp => rw [List.singleton_perm_singleton.1 hp]
        | _ :: _ :: _, _, _, h2, _ => simp at h2
    · rw [allStability_ok hf _ (hr _ hF), allStability_ok hf _ (hr _ hF'),
        pairSum_perm (hp.map denseRank) (fun a ha b hb => hs a b (hr _ hF a ha) (hr _ hF b hb))]
  unfold stabilityPairwise
  rw [hall, hl]
  by_cases h : imp = []
  · rw [if_pos h, if_pos (hnil.1 h)]
  · rw [if_neg h, if_neg (fun h' => h (hnil.2 h'))]

example : stabilityPairwise .jaccard [[1, 5, 3], [2, 1, 0], [4, 4, (7 : ℚ)]] = .ok (19 / 54) ∧
    stabilityPairwise .jaccard [[4, 4, (7 : ℚ)], [2, 1, 0], [1, 5, 3]] = .ok (19 / 54) := by
  decide +kernel

/-! ### C82 -/

/-- The row with its features renumbered: the new feature `a` is the old feature `σ[a]`. -/
def renumber (σ : List Nat) (row : List K) : List K := σ.map (fun i => row.getD i 0)

/-- C82, in part. The frequency stability does not change when the features are renumbered in all rows, if the `k` most important features
of each row are strictly more important than its others. -/
theorem C82_freq_partial (sortIdx : List K → List Nat) (hsort : IsArgsortDesc sortIdx) (imp : List (List K)) (F k : Nat)
    (hF : ∀ row ∈ imp, row.length = F) (hN : 2 ≤ imp.length) (hpos : ∀ row ∈ imp, ∀ x ∈ row, 0 ≤ x) (hk : 0 < k) (hkF : k < F)
    (σ : List Nat) (hσ : σ.Perm (List.range F))
    (hstrict : ∀ row ∈ imp, ∃ S : Finset Nat, S.card = k ∧ (∀ a ∈ S, a < F) ∧ ∀ a ∈ S, ∀ b < F, b ∉ S → row.getD b 0 < row.getD a 0) :
    stabilityFreq sortIdx (imp.map (renumber σ)) k = stabilityFreq sortIdx imp k := by
  have hσl : σ.length = F := by rw [hσ.length_eq, List.length_range]
  have hσn : σ.Nodup := hσ.nodup_iff.2 List.nodup_range
  have hget : ∀ (row : List K) (a : Nat), a < F → (renumber σ row).getD a 0 = row.getD (σ.getD a 0) 0 := by
    intro row a ha
    unfold renumber
    rw [List.getD_eq_getElem _ _ (by simpa [hσl] using ha), List.getElem_map, List.getD_eq_getElem σ _ (by omega)]
  have hlt : ∀ a < F, σ.getD a 0 < F := by
    intro a ha
    rw [List.getD_eq_getElem σ _ (by omega)]
    exact List.mem_range.1 (hσ.mem_iff.1 (List.getElem_mem _))
  obtain ⟨sel, h1, h2⟩ := C69_value sortIdx hsort imp F k hF hN hpos hk hkF
  obtain ⟨sel', h1', h2'⟩ := C69_value sortIdx hsort (imp.map (renumber σ)) F k
    (by
      intro r hr
      obtain ⟨row, hrow, rfl⟩ := List.mem_map.1 hr
      simp [renumber, hσl])
    (by simpa using hN)
    (by
      intro r hr x hx
      obtain ⟨row, hrow, rfl⟩ := List.mem_map.1 hr
      obtain ⟨i, hi, rfl⟩ := List.mem_map.1 hx
      have hi' : i < row.length := by rw [hF row hrow]; exact List.mem_range.1 (hσ.mem_iff.1 hi)
      rw [List.getD_eq_getElem _ _ hi']
      exact hpos row hrow _ (List.getElem_mem _)) hk hkF
  have hsel : ∀ row ∈ imp, ∀ a < F, (a ∈ sel' (renumber σ row) ↔ σ.getD a 0 ∈ sel row) := by
    intro row hrow
    obtain ⟨S, c1, c2, c3⟩ := hstrict row hrow
    have e1 : sel row = S := (h1 row hrow).unique (hF row hrow) c1 c2 c3
    have e2 : sel' (renumber σ row) = (Finset.range F).filter (fun a => σ.getD a 0 ∈ S) := by
      apply (h1' _ (List.mem_map_of_mem hrow)).unique (F := F) (by simp [renumber, hσl])
      · rw [← c1]
        apply Finset.card_bij (fun a _ => σ.getD a 0)
        · intro a ha; exact (Finset.mem_filter.1 ha).2
        · intro a ha b hb hab
          have ha' := Finset.mem_range.1 (Finset.mem_filter.1 ha).1
          have hb' := Finset.mem_range.1 (Finset.mem_filter.1 hb).1
          rw [List.getD_eq_getElem σ _ (by omega), List.getD_eq_getElem σ _ (by omega)] at hab
          exact (hσn.getElem_inj_iff).1 hab
        · intro b hb
          have hb' : b ∈ σ := hσ.mem_iff.2 (List.mem_range.2 (c2 b hb))
          obtain ⟨a, ha, rfl⟩ := List.mem_iff_getElem.1 hb'
          refine ⟨a, ?_, List.getD_eq_getElem σ _ ha⟩
          rw [Finset.mem_filter, Finset.mem_range, List.getD_eq_getElem σ _ ha]
          exact ⟨by omega, hb⟩
      · intro a ha; exact Finset.mem_range.1 (Finset.mem_filter.1 ha).1
      · intro a ha b hb hbn
        obtain ⟨ha1, ha2⟩ := Finset.mem_filter.1 ha
        rw [hget row a (Finset.mem_range.1 ha1), hget row b hb]
        apply c3 _ ha2 _ (hlt b hb)
        intro h
        exact hbn (Finset.mem_filter.2 ⟨Finset.mem_range.2 hb, h⟩)
    intro a ha
    rw [e1, e2, Finset.mem_filter, Finset.mem_range]
    exact ⟨fun h => h.2, fun h => ⟨ha, h⟩⟩
  have hfreq : ∀ a < F, topFreq sel' (imp.map (renumber σ)) a = topFreq sel imp (σ.getD a 0) := by
    intro a ha
    unfold topFreq
    rw [List.length_map, List.countP_map]
    congr 2
    apply List.countP_congr
    intro row hrow
    simpa using hsel row hrow a ha
  rw [h2, h2', List.length_map]
  congr 4
  have hσe : (List.range F).map (fun a => σ.getD a 0) = σ := by
    apply List.ext_getElem (by simp [hσl])
    intro i h1 h2
    rw [List.getElem_map, List.getElem_range, List.getD_eq_getElem σ _ h2]
  have : (List.range F).map (fun f => (imp.length : K) / ((imp.length : K) - 1) *
      (topFreq sel' (imp.map (renumber σ)) f * (1 - topFreq sel' (imp.map (renumber σ)) f))) =
      ((List.range F).map (fun a => σ.getD a 0)).map (fun f => (imp.length : K) / ((imp.length : K) - 1) *
        (topFreq sel imp f * (1 - topFreq sel imp f))) := by
    rw [List.map_map]
    apply List.map_congr_left
    intro a ha
    rw [hfreq a (List.mem_range.1 ha)]
    rfl
  rw [this, hσe]
  rw [(hσ.map _).sum_eq]

/-- C82 fails for the pairwise stability, with every metric: exchanging the first and the last of three features changes the value. -/
theorem C82_refuted :
    [Metric.jaccard, .spearman, .kuncheva].map (fun m => stabilityPairwise m [[1, 2, 3], [2, 1, (3 : ℚ)]]) =
      [.ok (2 / 3), .ok (3 / 4), .ok (-1 / 3)] ∧
    [Metric.jaccard, .spearman, .kuncheva].map (fun m => stabilityPairwise m ([[1, 2, 3], [2, 1, (3 : ℚ)]].map (renumber [2, 1, 0]))) =
      [.ok (4 / 9), .ok (1 / 2), .ok (-1 / 6)] := by
  decide +kernel

end FF
