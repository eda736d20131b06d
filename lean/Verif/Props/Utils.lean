import Verif.Proofs.Utils
import Verif.Props.Criteria
import Verif.Model.Forest
import Verif.Model.Instances

/-!
# Properties of the helper functions (C55, C72, C73, C75, C76, C78)
-/

set_option linter.unusedSectionVars false

namespace FF

open Spec

variable {K : Type} [Field K] [LinearOrder K] [IsStrictOrderedRing K] [FloorRing K] [NpFun K] {G : Type}

/-! ### C55 -/

/-- C55. `get_out_of_bag(idcs, n)` lists, in increasing order (so without repeats), exactly the numbers below `n` that are not in
`idcs`. -/
theorem C55_out_of_bag (idcs : List Nat) (n : Nat) :
    (getOutOfBag idcs n).Pairwise (· < ·) ∧ ∀ i, i ∈ getOutOfBag idcs n ↔ i < n ∧ i ∉ idcs := by
  unfold getOutOfBag
  constructor
  · exact List.Pairwise.filter _ List.pairwise_lt_range
  · intro i
    simp

example : getOutOfBag [3, 0, 3, 5] 7 = [1, 2, 4, 6] := by decide

/-! ### C72 -/

/-- C72. If all labels are classes, `counts_of_labels` returns one count per class, under the number the dictionary gives to the class,
and the counts add up to the number of labels; otherwise it raises KeyError. -/
theorem C72_label_counts (d : ClassDict K) (hd : ClassesOK d) (labels : List K) :
    ((∀ y ∈ labels, y ∈ d.map Prod.fst) → ∃ c, countsOfLabels d labels = .ok c ∧ c.length = d.length ∧
      (∀ u i, d.lookup u = some i → c[i]? = some (labels.count u)) ∧ c.sum = labels.length) ∧
    ((∃ y ∈ labels, y ∉ d.map Prod.fst) → countsOfLabels d labels = .error .keyError) := by
  constructor
  · intro h
    obtain ⟨c, hc⟩ := countsOfLabels_total hd h
    obtain ⟨h1, _⟩ := countsOfLabels_spec hd hc
    refine ⟨c, hc, by rw [h1, List.length_map], fun u i hu => ?_, ?_⟩
    · rw [h1, List.getElem?_map, (hd.lookup u i).1 hu]
      rfl
    · have := sum_count_eq_length (d.map Prod.fst) hd.1 labels h
      rw [List.map_map] at this
      rw [h1]
      exact this
  · rintro ⟨y, hy, hn⟩
    exact countsLoop_keyError hd labels (by simp) ⟨y, mem_npUnique.2 hy, hn⟩

/-- The dictionaries made by `class_to_idx` from distinct class names are of the kind C72 asks for. -/
theorem C72_class_to_idx (classes : List K) (h : classes.Nodup) :
    ClassesOK (classToIdx classes) ∧ ∀ (u : K) (i : Nat), (classToIdx classes).lookup u = some i ↔ classes[i]? = some u := by
  refine ⟨classToIdx_ok h, fun u i => ?_⟩
  rw [(classToIdx_ok h).lookup]
  unfold classToIdx
  rw [List.getElem?_zip_eq_some]
  constructor
  · exact fun h => h.1
  · intro hu
    refine ⟨hu, ?_⟩
    have := (List.getElem?_eq_some_iff.1 hu).1
    rw [List.getElem?_range this]

example : countsOfLabels (classToIdx [(7 : ℚ), 2, 5]) [5, 7, 5, 5] = .ok [1, 0, 3] ∧
    countsOfLabels (classToIdx [(7 : ℚ), 2, 5]) [5, 8] = .error .keyError := by
  constructor <;> decide +kernel

/-! ### C73 -/

/-- C73, the part that holds: `data_to_discrete(data, n)` finds, whatever `n` is, exactly the features with at most *ten* different values,
and stores exactly these values. So the property holds for `n = 10`, the only value the program uses. -/
theorem C73_ten_partial (data : List (List K)) (n : Nat) (hne : data ≠ []) :
    ∃ d, dataToDiscrete data n = .ok d ∧ ∀ f : Nat,
      (f < (data.getD 0 []).length ∧ (data.map (fun r => r.getD f 0)).dedup.length ≤ 10 →
        ∃ v : DiscVals K, d.lookup f = some v ∧ v.vals.Nodup ∧ ∀ x, x ∈ v.vals ↔ x ∈ data.map (fun r => r.getD f 0)) ∧
      (¬ (f < (data.getD 0 []).length ∧ (data.map (fun r => r.getD f 0)).dedup.length ≤ 10) → d.lookup f = none) := by
  cases data with
  | nil => exact absurd rfl hne
  | cons row rows =>
    refine ⟨_, rfl, fun f => ?_⟩
    have hg := lookup_filterMap (List.range row.length)
      (fun f => (discreteVals ((row :: rows).map (fun r => r.getD f 0)) []).map (fun vs => ({ isSet := true, vals := vs } : DiscVals K))) f
      List.nodup_range
    simp only [Option.map_map, Function.comp_def] at hg
    rw [hg]
    have hs := discreteVals_nil ((row :: rows).map (fun r => r.getD f 0))
    simp only [List.getD_cons_zero, List.mem_range]
    constructor
    · rintro ⟨h1, h2⟩
      rw [if_pos h1]
      cases hd : discreteVals ((row :: rows).map (fun r => r.getD f 0)) [] with
      | none =>
        rw [hd] at hs
        simp only [] at hs
        omega
      | some r =>
        rw [hd] at hs
        exact ⟨_, rfl, hs.1, hs.2.1⟩
    · intro h
      by_cases h1 : f < row.length
      · rw [if_pos h1]
        cases hd : discreteVals ((row :: rows).map (fun r => r.getD f 0)) [] with
        | none => rfl
        | some r =>
          rw [hd] at hs
          exact absurd ⟨h1, hs.2.2⟩ h
      · rw [if_neg h1]

/-- C73 fails for other `n`: with `n = 2` a feature with three different values is taken to be discrete. -/
theorem C73_refuted : (dataToDiscrete [[(1 : ℚ)], [2], [3]] 2).map (fun d => d.map (fun p => (p.1, p.2.vals))) = .ok [(0, [1, 2, 3])] := by
  decide +kernel

/-! ### C75 -/

/-- C75. If `feature_subsampling` asks for `k` of the features, `choose_features` returns `k` of them, distinct if they are, for every
outcome of the generator; if `k` is negative or larger than their number it raises ValueError. Without subsampling it returns them all,
in order. -/
theorem C75_choose_features (R : Rng K G) (g : G) (feats : List Nat) (sub : FeatSub K) (k : Int) (hk : AsksFor feats.length sub k) :
    (0 ≤ k ∧ k ≤ feats.length → ∃ r g', chooseFeatures R g feats sub = .ok (r, g') ∧ (r.length : Int) = k ∧ (∀ f ∈ r, f ∈ feats) ∧
      (feats.Nodup → r.Nodup) ∧ (sub = .none → r = feats)) ∧
    (¬ (0 ≤ k ∧ k ≤ feats.length) → chooseFeatures R g feats sub = .error .valueError) := by
  rcases featCount_asks hk with ⟨hneg, herr⟩ | ⟨hpos, c, hc, hck, hcn⟩
  · constructor
    · rintro ⟨h, _⟩; omega
    · intro _
      unfold chooseFeatures
      rw [herr]
  · constructor
    · rintro ⟨_, hle⟩
      have hex : ∃ r g', chooseFeatures R g feats sub = .ok (r, g') := by
        unfold chooseFeatures
        rw [hc]
        cases c with
        | none => exact ⟨_, _, rfl⟩
        | some m =>
          simp only [Option.getD_some] at hck
          unfold rngChoice
          simp only []
          rw [if_pos (by omega)]
          exact ⟨_, _, rfl⟩
      obtain ⟨r, g', hr⟩ := hex
      have hnum := chooseFeatures_num hr
      obtain ⟨c', hc', hlen⟩ := hnum.num
      rw [hc] at hc'
      cases hc'
      exact ⟨r, g', hr, by rw [hlen]; exact hck, chooseFeatures_sub hr, hnum.nodup, hnum.all⟩
    · intro hnot
      unfold chooseFeatures
      rw [hc]
      cases c with
      | none =>
        have := hcn rfl
        omega
      | some m =>
        simp only [Option.getD_some] at hck
        unfold rngChoice
        simp only []
        rw [if_neg (by omega)]

example : AsksFor (K := ℚ) 5 .sqrt 3 ∧ AsksFor (K := ℚ) 5 (.float (1 / 2)) 3 ∧ AsksFor (K := ℚ) 5 (.int 7) 7 ∧
    (chooseFeatures rngQ 11 [4, 2, 9, 7, 1] (.float (1 / 2))).map (fun p => p.1.length) = .ok 3 ∧
    (chooseFeatures rngQ 11 [4, 2, 9, 7, 1] (.int 7)).map Prod.fst = .error .valueError := by
  refine ⟨⟨by norm_num, by norm_num, fun j h0 h1 => ?_⟩, ⟨by norm_num, by norm_num⟩, rfl, by decide +kernel, by decide +kernel⟩
  by_contra hlt
  have : j = 0 ∨ j = 1 ∨ j = 2 := by omega
  rcases this with rfl | rfl | rfl <;> norm_num at h1

/-! ### C76 -/

/-- Rows of one column and their labels. -/
def colSamples (data : List (List K)) (labels : List K) (feature : Nat) : List (K × K) :=
  (data.map (fun r => r.getD feature 0)).zip labels

/-- C76, what `verify_reduction` really answers: true exactly if both sides of the split are non-empty, whether or not the impurity drops.
(It compares the drop, which is never negative, with −0.1.) So False is right: a one-sided split does not lower the impurity. -/
theorem C76_two_sided_partial (data : List (List K)) (labels : List K) (feature : Nat) (value : K) (hlen : data.length = labels.length)
    (hcol : ∀ r ∈ data, feature < r.length) (hne : labels ≠ []) :
    verifyReduction data labels feature value =
      .ok (decide (labelsLe (colSamples data labels feature) value ≠ [] ∧ labelsGt (colSamples data labels feature) value ≠ [])) ∧
    (verifyReduction data labels feature value = .ok false → change gini (colSamples data labels feature) value = 0) := by
  have hlab : ∀ (ys : List K), (∀ y ∈ ys, y ∈ labels) →
      ∃ c, countsOfLabels (classToIdx (npUnique labels)) ys = .ok c ∧ c = countsOf (npUnique labels) ys ∧ c.sum = ys.length := by
    intro ys hys
    have hd := classToIdx_ok (npUnique_nodup labels)
    obtain ⟨c, hc⟩ := countsOfLabels_total hd (labels := ys)
      (fun y hy => by rw [classToIdx_fst]; exact mem_npUnique.2 (hys y hy))
    have h1 := (countsOfLabels_spec hd hc).1
    have h2 : c = countsOf (npUnique labels) ys := by
      rw [h1]
      unfold countsOf
      conv_rhs => rw [← classToIdx_fst (npUnique labels)]
      rw [List.map_map]
      rfl
    exact ⟨c, hc, h2, by rw [h2]; exact sum_countsOf (npUnique_nodup labels) (fun y hy => mem_npUnique.2 (hys y hy))⟩
  have hg : ∀ (ys : List K), (∀ y ∈ ys, y ∈ labels) →
      1 - ((countsOf (npUnique labels) ys).map (fun (c : Nat) => ((c : K) / (ys.length : K)) * ((c : K) / (ys.length : K)))).sum = gini ys := by
    intro ys hys
    rw [← giniK_countsOf (npUnique_nodup labels) (fun y hy => mem_npUnique.2 (hys y hy))]
    unfold giniK
    simp only [pow_two]
  set S := colSamples data labels feature with hS
  have hSsnd : S.map Prod.snd = labels := by
    rw [hS]
    unfold colSamples
    rw [List.map_snd_zip (by rw [List.length_map, hlen])]
  have hL : ∀ y ∈ labelsLe S value, y ∈ labels := by
    intro y hy
    rw [← hSsnd]
    unfold labelsLe at hy
    obtain ⟨s, hs, rfl⟩ := List.mem_map.1 hy
    exact List.mem_map.2 ⟨s, (List.mem_filter.1 hs).1, rfl⟩
  have hR : ∀ y ∈ labelsGt S value, y ∈ labels := by
    intro y hy
    rw [← hSsnd]
    unfold labelsGt at hy
    obtain ⟨s, hs, rfl⟩ := List.mem_map.1 hy
    exact List.mem_map.2 ⟨s, (List.mem_filter.1 hs).1, rfl⟩
  have hSne : S ≠ [] := by
    intro h
    rw [h] at hSsnd
    exact hne hSsnd.symm
  have key : verifyReduction data labels feature value =
      .ok (decide (labelsLe S value ≠ [] ∧ labelsGt S value ≠ [])) := by
    obtain ⟨c, c1, c2, c3⟩ := hlab labels (fun y hy => hy)
    obtain ⟨l, l1, l2, l3⟩ := hlab (labelsLe S value) hL
    obtain ⟨r, r1, r2, r3⟩ := hlab (labelsGt S value) hR
    unfold verifyReduction
    simp only []
    rw [c1]
    simp only []
    rw [colE_total hcol]
    simp only []
    rw [if_neg (by rw [List.length_map, hlen]; exact fun h => h rfl)]
    have e1 : (((data.map (fun row => row.getD feature 0)).zip labels).filter (fun p => decide (p.1 ≤ value))).map Prod.snd
        = labelsLe S value := rfl
    have e2 : (((data.map (fun row => row.getD feature 0)).zip labels).filter (fun p => decide (value < p.1))).map Prod.snd
        = labelsGt S value := rfl
    rw [e1, e2, l1]
    simp only []
    by_cases h1 : labelsLe S value = []
    · rw [if_pos (by rw [h1]; rfl)]
      simp [h1]
    rw [if_neg (by simpa using h1), r1]
    simp only []
    by_cases h2 : labelsGt S value = []
    · rw [if_pos (by rw [h2]; rfl)]
      simp [h2]
    rw [if_neg (by simpa using h2), l3, r3, c2, l2, r2]
    have hp := gini_change_nonpos _ _ _ (labels_perm S value)
    rw [hSsnd] at hp
    have hlp : (0 : K) < labels.length := by exact_mod_cast List.length_pos_iff.2 hne
    have e3 : (gini (labelsLe S value) * ((labelsLe S value).length : K) + gini (labelsGt S value) * ((labelsGt S value).length : K))
        / (labels.length : K) = ((labelsLe S value).length : K) / (labels.length : K) * gini (labelsLe S value)
          + ((labelsGt S value).length : K) / (labels.length : K) * gini (labelsGt S value) := by
      field_simp
    have h10 : (0 : K) < 1 / 10 := by norm_num
    rw [decide_eq_true (show labelsLe S value ≠ [] ∧ labelsGt S value ≠ [] from ⟨h1, h2⟩)]
    congr 1
    apply decide_eq_true
    rw [hg _ (fun y hy => hy), hg _ hL, hg _ hR, e3]
    linarith
  refine ⟨key, fun hf => ?_⟩
  rw [key] at hf
  simp only [Except.ok.injEq, decide_eq_false_iff_not, not_and_or, not_not] at hf
  apply change_oneSided gini hSne
  rcases hf with h | h
  · right
    intro s hs
    by_contra hlt
    have : s.2 ∈ labelsLe S value := List.mem_map.2 ⟨s, List.mem_filter.2 ⟨hs, by simpa using hlt⟩, rfl⟩
    rw [h] at this
    cases this
  · left
    intro s hs
    by_contra hlt
    have : s.2 ∈ labelsGt S value := List.mem_map.2 ⟨s, List.mem_filter.2 ⟨hs, by simpa using hlt⟩, rfl⟩
    rw [h] at this
    cases this

/-- C76 fails: a split that leaves the impurity as it is is accepted. -/
theorem C76_refuted : verifyReduction [[(0 : ℚ)], [0], [1], [1]] [0, 1, 0, 1] 0 0 = .ok true ∧
    change gini (colSamples [[(0 : ℚ)], [0], [1], [1]] [0, 1, 0, 1] 0) 0 = 0 := by
  constructor <;> decide +kernel

/-! ### C78 -/

/-- Order of arms: by feature, then by bin. -/
def armLt (a b : Arm) : Prop := a.1 < b.1 ∨ (a.1 = b.1 ∧ a.2 < b.2)

/-- C78. For arms whose bin numbers are below `B`, `filter_tied_arms` returns exactly the candidates that are not tied, sorted by
(feature, bin) without repeats. -/
theorem C78_filter_tied (cands tied : List Arm) (B : Nat) (hc : ∀ a ∈ cands, a.2 < B) (ht : ∀ a ∈ tied, a.2 < B) :
    (filterTiedArms cands tied B).Pairwise armLt ∧ ∀ a, a ∈ filterTiedArms cands tied B ↔ a ∈ cands ∧ a ∉ tied := by
  have henc : ∀ a : Arm, a.2 < B → ((B * a.1 + a.2) / B, (B * a.1 + a.2) % B) = a := by
    intro a ha
    have hB : 0 < B := by omega
    rw [Nat.mul_add_div hB, Nat.div_eq_of_lt ha, Nat.mul_add_mod, Nat.mod_eq_of_lt ha]
    rfl
  unfold filterTiedArms
  simp only []
  constructor
  · rw [List.pairwise_map]
    have hs : ∀ l : List Nat, l.Nodup → (l.insertionSort (· ≤ ·)).Pairwise (· < ·) := by
      intro l hl
      have h1 := List.pairwise_insertionSort (· ≤ ·) l
      have h2 : (l.insertionSort (· ≤ ·)).Nodup := (List.perm_insertionSort _ _).nodup_iff.2 hl
      exact (h1.and h2).imp (fun h => lt_of_le_of_ne h.1 h.2)
    refine List.Pairwise.imp_of_mem ?_ (hs _ (List.nodup_dedup _))
    intro x y hx hy hxy
    rw [List.mem_insertionSort, List.mem_dedup, List.mem_filter, List.mem_map] at hx
    obtain ⟨⟨a, ha, rfl⟩, _⟩ := hx
    have hB : 0 < B := by have := hc a ha; omega
    unfold armLt
    simp only []
    rcases Nat.lt_or_ge ((B * a.1 + a.2) / B) (y / B) with h | h
    · exact Or.inl h
    · right
      have hle : (B * a.1 + a.2) / B ≤ y / B := Nat.div_le_div_right hxy.le
      have he : (B * a.1 + a.2) / B = y / B := le_antisymm hle h
      refine ⟨he, ?_⟩
      have e1 := Nat.div_add_mod (B * a.1 + a.2) B
      have e2 := Nat.div_add_mod y B
      rw [he] at e1
      omega
  · intro a
    rw [List.mem_map]
    constructor
    · rintro ⟨x, hx, rfl⟩
      rw [List.mem_insertionSort, List.mem_dedup, List.mem_filter, List.mem_map] at hx
      obtain ⟨⟨b, hb, rfl⟩, hn⟩ := hx
      rw [henc b (hc b hb)]
      refine ⟨hb, fun hbt => ?_⟩
      simp only [Bool.not_eq_eq_eq_not, Bool.not_true, List.contains_eq_mem, decide_eq_false_iff_not, List.mem_map, not_exists, not_and] at hn
      exact hn b hbt rfl
    · rintro ⟨ha, hn⟩
      refine ⟨B * a.1 + a.2, ?_, henc a (hc a ha)⟩
      rw [List.mem_insertionSort, List.mem_dedup, List.mem_filter, List.mem_map]
      refine ⟨⟨a, ha, rfl⟩, ?_⟩
      simp only [Bool.not_eq_eq_eq_not, Bool.not_true, List.contains_eq_mem, decide_eq_false_iff_not, List.mem_map, not_exists, not_and]
      intro b hb he
      apply hn
      rw [← henc a (hc a ha), ← he, henc b (ht b hb)]
      exact hb

example : filterTiedArms [(1, 0), (0, 2), (1, 1), (0, 2), (0, 0)] [(1, 1)] 3 = [(0, 0), (0, 2), (1, 0)] := by decide

end FF
