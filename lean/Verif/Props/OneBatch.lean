import Verif.Proofs.OneBatch

/-!
# C133: with Gini or entropy `solve_mab` looks at one batch; C134: how likely it is to find the best split
-/

namespace FF

open Spec

set_option linter.unusedSectionVars false

variable {K : Type} [Field K] [LinearOrder K] [IsStrictOrderedRing K] [FloorRing K] [NpFun K] {G : Type}

/-! ### C133 -/

theorem two_classes {labels : List K} (hcls : ∃ y ∈ labels, ∃ y' ∈ labels, y ≠ y') : 2 ≤ (nodeClasses true labels).length := by
  unfold nodeClasses
  rw [if_pos rfl, (npUnique_perm labels).length_eq]
  obtain ⟨y, hy, y', hy', hne⟩ := hcls
  have h1 := List.mem_dedup.2 hy
  have h2 := List.mem_dedup.2 hy'
  match hl : labels.dedup, h1, h2 with
  | [z], h1, h2 =>
    rw [List.mem_singleton] at h1 h2
    exact absurd (h1.trans h2.symm) hne
  | _ :: _ :: _, _, _ => simp

theorem firstBatch_length {R : Rng K G} {g : G} {n batch : Nat} {withRep : Bool} (hn : n ≠ 0) :
    (firstBatch R g n batch withRep).length = min batch n := by
  unfold firstBatch
  split_ifs with h1 h2
  · simp only [List.length_range]; omega
  · rw [R.choiceRep_length g _ _ (by omega)]; omega
  · rw [R.choice_length g _ _ (by omega)]; omega

/-- C133. Classification, any budget, with or without replacement. If the labels of the node are not all the same and some candidate
threshold has no row of the node above it, then `solve_mab` looks at one batch of rows and nothing else, and the split it returns is a
best split of that batch. -/
theorem C133_one_batch (R : Rng K G) (g : G) (glob : Glob G) (junk : Junk K) (row : List K) (rest : List (List K))
    (labels : List K) (minmax : Option (List K × List K)) (d : DiscDict K) (binType : Option BinType) (B : Nat)
    (m : Criterion) (epsilon : K) (withRep : Bool) (budget : Option Int) (batch : Nat) (out : MabOut K G)
    (hs : Hists K G) (hm : CritFits true m) (hb : BinningOK minmax d binType B)
    (hmake : makeHistograms R glob.np true (row :: rest) labels minmax d binType B = .ok hs)
    (h5 : 5 < numCands hs.hists row.length B) (hcls : ∃ y ∈ labels, ∃ y' ∈ labels, y ≠ y')
    (hidle : IdleCand (row :: rest) hs.hists B)
    (hok : solveMab R g glob junk (row :: rest) labels minmax d binType (some B) true m epsilon withRep budget batch
      = .ok out) :
    out.final.log = [firstBatch R g (row :: rest).length batch withRep] ∧
    out.total ≤ row.length * min batch (row :: rest).length ∧
    BestOn m (row :: rest) labels hs.hists B (firstBatch R g (row :: rest).length batch withRep) out.split := by
  have hties := C112_ties R g glob junk row rest labels minmax d binType B true m epsilon withRep budget batch out hs hm hb hmake h5 hok
  obtain ⟨row', rest', B', hs', s0, hdata, hB, hid, hmake', hinit, hloop, hfin⟩ := solveMab_parts hok
  cases hdata
  cases hB
  rw [hmake] at hmake'
  cases hmake'
  have hg := makeHistograms_good hb hmake
  have hi := MabInv.init (m := m) hg hmake hinit
  obtain ⟨n, hruns⟩ := mabLoop_ok_runs _ _ hloop
  obtain ⟨I, hI⟩ := hi.visited hm hb (by simp) hg hruns.visited
  have hc2 := two_classes hcls
  have hone := one_final hm hb (by simp) hg hmake hinit (lt_of_lt_of_le h5 hg.numCands_le) hc2 hidle hruns
  obtain ⟨_, _, _, _, _, htotal, _, hfinal⟩ := mabFinish_ok hfin
  rw [← hfinal] at hone hI htotal
  obtain ⟨e, T, _, hT, hmin, _, f, b, v, hTf, hcand, hsplit⟩ := hties
  have hest : ∀ f b v, IsCand hs.hists B f b v → out.final.est (f, b)
      = .fin (changeOn m (row :: rest) labels (firstBatch R g (row :: rest).length batch withRep) f v) := by
    intro f b v hc
    obtain ⟨hmem, hv⟩ := hg.cand_mem hc
    have := hone.est _ hmem (mem_allArms.2 ⟨(hg.cands_valid _ hmem).1, hc.2⟩)
    simp only [hv] at this
    exact this
  have hbest : e = changeOn m (row :: rest) labels (firstBatch R g (row :: rest).length batch withRep) f v := by
    have := ((hT f b).1 (List.mem_of_getElem? hTf)).2
    rw [hest f b v hcand] at this
    injection this with this
    exact this.symm
  refine ⟨hone.log, ?_, ?_⟩
  · rw [htotal]
    refine hI.cost.trans ?_
    rw [hone.log]
    have hlen := firstBatch_length (R := R) (g := g) (n := (row :: rest).length) (batch := batch) (withRep := withRep) (by simp)
    simp only [List.flatten_cons, List.flatten_nil, List.append_nil]
    rw [hlen]
    exact Nat.mul_le_mul_right _ (featCountOf_le_F (fun a ha => (hg.cands_valid a ha).1))
  · rw [hsplit]
    split_ifs with hneg
    · refine ⟨⟨b, hcand⟩, by rw [hbest], by rw [← hbest]; exact hneg, fun f' b' v' hc' => ?_⟩
      rw [← hbest]
      exact hmin f' b' v' _ hc' (hest f' b' v' hc')
    · intro f' b' v' hc'
      exact (not_lt.1 hneg).trans (hmin f' b' v' _ hc' (hest f' b' v' hc'))

/-- With LINEAR bins the largest threshold of a feature is its maximum (the node's, or the precomputed one), and separates nothing. -/
theorem idle_linear_of {R : Rng K G} {g : G} {isCls : Bool} {row : List K} {rest : List (List K)} {labels : List K}
    {minmax : Option (List K × List K)} {d : DiscDict K} {B : Nat} {hs : Hists K G} (hb : BinningOK minmax d (some .linear) B)
    (hmake : makeHistograms R g isCls (row :: rest) labels minmax d (some .linear) B = .ok hs)
    (hmax : ∀ mins maxs, minmax = some (mins, maxs) → ∀ (f : Nat) (hi : K), maxs[f]? = some hi → ∀ x ∈ row :: rest, x.getD f 0 ≤ hi)
    {f b : Nat} {v : K} (hf : f < row.length) (hc : IsCand hs.hists B f b v) : IdleCand (row :: rest) hs.hists B := by
  obtain ⟨lo, hi, h1, h2, he⟩ := (C13_candidates_linear R g isCls row rest labels minmax d B hs hb hmake).2 f hf
  have hB1 := hb.linear_bins rfl
  have hB := hc.2
  have hne : lo ≠ hi := by
    intro hl
    rw [if_pos hl] at he
    have := hc.1
    rw [he] at this
    simp at this
  rw [if_neg hne] at he
  refine ⟨f, B - 1, hi, ⟨?_, by omega⟩, fun x hx => ?_⟩
  · rw [he, List.getElem?_map, List.getElem?_range (by omega), Option.map_some]
    have : ((B - 1 : Nat) : K) = (B : K) - 1 := by
      rw [Nat.cast_sub (by omega), Nat.cast_one]
    have hne' : (B : K) - 1 ≠ 0 := by
      rw [← this]
      have : B - 1 ≠ 0 := by omega
      exact_mod_cast this
    rw [this, mul_div_cancel₀ _ hne']
    congr 1
    ring
  · cases hmm : minmax with
    | none => exact le_npMax (h1 hmm).2 (List.mem_map.2 ⟨x, hx, rfl⟩)
    | some p => exact hmax p.1 p.2 hmm f hi (h2 _ _ hmm).2 x hx

theorem idle_linear {R : Rng K G} {g : G} {isCls : Bool} {row : List K} {rest : List (List K)} {labels : List K}
    {minmax : Option (List K × List K)} {d : DiscDict K} {B : Nat} {hs : Hists K G} (hb : BinningOK minmax d (some .linear) B)
    (hmake : makeHistograms R g isCls (row :: rest) labels minmax d (some .linear) B = .ok hs)
    (hmax : ∀ mins maxs, minmax = some (mins, maxs) → ∀ (f : Nat) (hi : K), maxs[f]? = some hi → ∀ x ∈ row :: rest, x.getD f 0 ≤ hi)
    (h0 : 0 < numCands hs.hists row.length B) : IdleCand (row :: rest) hs.hists B := by
  obtain ⟨f, b, v, hf, hc⟩ := numCands_pos h0
  exact idle_linear_of hb hmake hmax hf hc

/-- C133 for LINEAR bins, the default. The bounds of the bins are those of the node or precomputed ones that cover it. -/
theorem C133_linear (R : Rng K G) (g : G) (glob : Glob G) (junk : Junk K) (row : List K) (rest : List (List K))
    (labels : List K) (minmax : Option (List K × List K)) (d : DiscDict K) (B : Nat)
    (m : Criterion) (epsilon : K) (withRep : Bool) (budget : Option Int) (batch : Nat) (out : MabOut K G)
    (hs : Hists K G) (hm : CritFits true m) (hb : BinningOK minmax d (some .linear) B)
    (hmax : ∀ mins maxs, minmax = some (mins, maxs) → ∀ (f : Nat) (hi : K), maxs[f]? = some hi → ∀ x ∈ row :: rest, x.getD f 0 ≤ hi)
    (hmake : makeHistograms R glob.np true (row :: rest) labels minmax d (some .linear) B = .ok hs)
    (h5 : 5 < numCands hs.hists row.length B) (hcls : ∃ y ∈ labels, ∃ y' ∈ labels, y ≠ y')
    (hok : solveMab R g glob junk (row :: rest) labels minmax d (some .linear) (some B) true m epsilon withRep budget batch
      = .ok out) :
    out.final.log = [firstBatch R g (row :: rest).length batch withRep] ∧
    out.total ≤ row.length * min batch (row :: rest).length ∧
    BestOn m (row :: rest) labels hs.hists B (firstBatch R g (row :: rest).length batch withRep) out.split :=
  C133_one_batch R g glob junk row rest labels minmax d (some .linear) B m epsilon withRep budget batch out hs hm hb hmake h5 hcls
    (idle_linear hb hmake hmax (by omega)) hok

/-- Two runs of this kind, with and without replacement. The rows of the first batch all have label 0, and no split is returned; those
of the second are separated by the returned split. -/
example :
    BinningOK (K := ℚ) none none (some .linear) 4 ∧
    (makeHistograms rngQ 0 true [[0, 1], [1, 1], [2, 5], [3, 5], [4, 2], [5, 2]] [0, 0, 1, 1, 0, 1] none none
      (some .linear) 4).toOption.map (fun hs => decide (5 < numCands hs.hists 2 4)) = some true ∧
    (solveMab rngQ 0 ⟨0, 0⟩ junkQ [[0, 1], [1, 1], [2, 5], [3, 5], [4, 2], [5, 2]] [0, 0, 1, 1, 0, 1] none none
      (some .linear) (some 4) true .gini 0 true none 3).toOption.map (fun o => (o.final.log, o.total, o.split))
      = some ([[0, 1, 4]], 6, none) ∧
    firstBatch rngQ 0 6 3 true = [0, 1, 4] ∧
    (solveMab rngQ 0 ⟨0, 0⟩ junkQ [[0, 1], [1, 1], [2, 5], [3, 5], [4, 2], [5, 2]] [0, 0, 1, 1, 0, 1] none none
      (some .linear) (some 4) true .gini 0 false none 3).toOption.map (fun o => (o.final.log, o.total, o.split))
      = some ([[0, 1, 2]], 6, some ⟨0, 5 / 3, .fin (-4 / 9)⟩) ∧
    firstBatch rngQ 0 6 3 false = [0, 1, 2] := by
  refine ⟨⟨by simp, by simp [discLookup], by simp, by simp⟩, ?_, ?_, ?_, ?_, ?_⟩ <;> decide +kernel

end FF
