import Verif.Proofs.Variance
import Verif.Model.Instances

/-!
# Properties of histograms (C01–C05)
-/

set_option linter.unusedSectionVars false

namespace FF

open Spec

variable {K : Type} [Field K] [LinearOrder K] [IsStrictOrderedRing K] [FloorRing K] {G : Type}

/-- C01. After any sequence of `add` calls on a classification histogram, entry `(b, j)` of the left (right) table is the
number of inserted samples of class `classes[j]` whose value is at most (larger than) edge `b`. `BinArgs` asks for LINEAR
bins that `min ≤ max` and that there is not exactly one bin (see `C01_one_linear_bin`), and for DISCRETE bins that the given
values are sorted. -/
theorem C01_threshold_counts (R : Rng K G) (g g' : G) (f : Nat) (uf : Option (DiscVals K)) (fData classes : List K)
    (nb : Nat) (lo hi : K) (bt : BinType) (h0 h : Hist K) (edges : List K) (Bs : List (List (List K) × List K))
    (hargs : BinArgs bt uf nb lo hi) (hclasses : classes.Nodup)
    (hinit : Hist.init R g true f uf fData classes nb lo hi bt = .ok (h0, g'))
    (hedges : h0.edges = some edges) (hadd : h0.addAll Bs = .ok h) :
    h.left.length = edges.length ∧ h.right.length = edges.length ∧
    ∀ b (hb : b < edges.length) j (hj : j < classes.length),
      (h.left.getD b []).length = classes.length ∧ (h.right.getD b []).length = classes.length ∧
      (h.left.getD b []).getD j 0 = countLe (samplesOf f Bs) edges[b] classes[j] ∧
      (h.right.getD b []).getD j 0 = countGt (samplesOf f Bs) edges[b] classes[j] := by
  obtain ⟨e1, e2, _, _⟩ := init_fields hinit
  have hr := clsRep_of_init hargs hclasses hinit hedges
  obtain ⟨hr', _, f2, _⟩ := hr.addAll Bs hadd
  rw [e1, List.nil_append] at hr'
  have hc : h.classes = classes := f2.trans e2
  refine ⟨?_, ?_, ?_⟩
  · rw [hr'.shapeL.1, hr'.good.1]
  · rw [hr'.shapeR.1, hr'.good.1]
  · intro b hb j hj
    have hb' : b < h.numBins := by rw [← hr'.good.1]; exact hb
    have hl := hr'.left b hb j (by rw [hc]; exact hj)
    have hrr := hr'.right b hb j (by rw [hc]; exact hj)
    refine ⟨by rw [hr'.shapeL.row hb', hc], by rw [hr'.shapeR.row hb', hc], ?_, ?_⟩
    · simp only [hc] at hl; exact hl
    · simp only [hc] at hrr; exact hrr

/-- The hypotheses of C01 are met by a histogram with three LINEAR bins and two batches. -/
example :
    (do let (h0, _) ← Hist.init rngQ 0 true 1 none [] [0, 2] 3 0 10 .linear
        let h ← h0.addAll [([[9, 1], [9, 5]], [0, 2]), ([[9, 7], [9, 12], [9, -3]], [0, 0, 2])]
        pure (h0.edges, h.left, h.right)).toOption
      = some (some [0, 5, 10], [[0, 1], [1, 2], [2, 2]], [[3, 1], [2, 0], [1, 0]]) := by decide +kernel

/-- With exactly one LINEAR bin the statement of C01 fails: every value is counted as if it were at most the only edge
(the minimum), because the bin width is infinite. -/
theorem C01_one_linear_bin :
    ∃ (h0 h : Hist ℚ), Hist.init rngQ 0 true 0 none [] [0, 1] 1 0 10 .linear = .ok (h0, 0) ∧ h0.edges = some [0] ∧
      h0.addAll [([[7]], [0])] = .ok h ∧ (h.left.getD 0 []).getD 0 0 = 1 ∧
      countLe (samplesOf 0 [([[7]], [0])]) (0 : ℚ) 0 = 0 := by
  refine ⟨_, _, rfl, rfl, rfl, ?_, ?_⟩ <;> decide +kernel

/-- Two tables of the same shape with the same entries are equal. -/
theorem shape_ext {t u : List (List Nat)} {n m : Nat} (ht : Shape t n m) (hu : Shape u n m)
    (h : ∀ b < n, ∀ j < m, cell t b j = cell u b j) : t = u := by
  apply List.ext_getElem (by rw [ht.1, hu.1])
  intro b hb hb'
  have hbn : b < n := by rw [← ht.1]; exact hb
  apply List.ext_getElem (by rw [ht.2 _ (List.getElem_mem _), hu.2 _ (List.getElem_mem _)])
  intro j hj hj'
  have := h b hbn j (by rw [← ht.2 _ (List.getElem_mem hb)]; exact hj)
  unfold cell at this
  rwa [List.getD_eq_getElem t _ hb, List.getD_eq_getElem u _ hb', List.getD_eq_getElem _ _ hj,
    List.getD_eq_getElem _ _ hj'] at this

/-- C02. Two sequences of `add` calls that insert the same samples, in any order and grouped in any way, leave the same
tables. -/
theorem C02_order_and_batching (R : Rng K G) (g g' : G) (f : Nat) (uf : Option (DiscVals K)) (fData classes : List K)
    (nb : Nat) (lo hi : K) (bt : BinType) (h0 h1 h2 : Hist K) (edges : List K)
    (Bs Cs : List (List (List K) × List K)) (hargs : BinArgs bt uf nb lo hi) (hclasses : classes.Nodup)
    (hinit : Hist.init R g true f uf fData classes nb lo hi bt = .ok (h0, g'))
    (hedges : h0.edges = some edges) (hB : h0.addAll Bs = .ok h1) (hC : h0.addAll Cs = .ok h2)
    (hperm : (samplesOf f Bs).Perm (samplesOf f Cs)) : h1.left = h2.left ∧ h1.right = h2.right := by
  obtain ⟨e1, e2, _, _⟩ := init_fields hinit
  have hr := clsRep_of_init hargs hclasses hinit hedges
  obtain ⟨r1, _, c1, n1⟩ := hr.addAll Bs hB
  obtain ⟨r2, _, c2, n2⟩ := hr.addAll Cs hC
  rw [e1, List.nil_append] at r1 r2
  have hn : h1.numBins = h2.numBins := n1.trans n2.symm
  have hc : h1.classes = h2.classes := c1.trans c2.symm
  have sL := r1.shapeL; have sR := r1.shapeR
  rw [hn, hc] at sL sR
  constructor
  · refine shape_ext sL r2.shapeL fun b hb j hj => ?_
    have hb' : b < edges.length := by rw [r2.good.1]; exact hb
    rw [r1.left b hb' j (by rw [hc]; exact hj), r2.left b hb' j hj]
    simp only [hc]
    exact hperm.countP_eq _
  · refine shape_ext sR r2.shapeR fun b hb j hj => ?_
    have hb' : b < edges.length := by rw [r2.good.1]; exact hb
    rw [r1.right b hb' j (by rw [hc]; exact hj), r2.right b hb' j hj]
    simp only [hc]
    exact hperm.countP_eq _

/-- C02 applies to a regrouped and reordered insertion of four samples. -/
example :
    let h0 : Hist ℚ := Hist.mk' true 0 [0, 1] .identity 0 0 (some [1, 2, 5]) 3
    (h0.addAll [([[1], [5]], [0, 1]), ([[2], [2]], [1, 0])]).toOption.isSome ∧
    (h0.addAll [([[2]], [0]), ([[5], [1], [2]], [1, 0, 1])]).toOption.isSome ∧
    (samplesOf 0 [([[1], [5]], [0, 1]), ([[2], [2]], [1, 0])]).Perm
      (samplesOf (K := ℚ) 0 [([[2]], [0]), ([[5], [1], [2]], [1, 0, 1])]) := by decide +kernel

/-- C03. After any sequence of `add` calls on a regression histogram, every pile holds the number and the mean of the
targets on its side of the edge, and the current pile those of all targets. (`mean [] = 0`, as in a fresh pile.) -/
theorem C03_counts_and_means (R : Rng K G) (g g' : G) (f : Nat) (uf : Option (DiscVals K)) (fData : List K)
    (nb : Nat) (lo hi : K) (bt : BinType) (h0 h : Hist K) (edges : List K) (Bs : List (List (List K) × List K))
    (hargs : BinArgs bt uf nb lo hi) (hinit : Hist.init R g false f uf fData [] nb lo hi bt = .ok (h0, g'))
    (hedges : h0.edges = some edges) (hadd : h0.addAll Bs = .ok h) :
    h.leftPile.length = edges.length ∧ h.rightPile.length = edges.length ∧
    (∀ b (hb : b < edges.length),
      (h.leftPile.getD b Pile.zero).n = (labelsLe (samplesOf f Bs) edges[b]).length ∧
      (h.leftPile.getD b Pile.zero).mean = mean (labelsLe (samplesOf f Bs) edges[b]) ∧
      (h.rightPile.getD b Pile.zero).n = (labelsGt (samplesOf f Bs) edges[b]).length ∧
      (h.rightPile.getD b Pile.zero).mean = mean (labelsGt (samplesOf f Bs) edges[b])) ∧
    h.currPile.n = (samplesOf f Bs).length ∧ h.currPile.mean = mean ((samplesOf f Bs).map Prod.snd) := by
  obtain ⟨e1, _, _, _⟩ := init_fields hinit
  have hr := regRep_of_init hargs hinit hedges
  obtain ⟨hr', _, _⟩ := hr.addAll Bs hadd
  rw [e1, List.nil_append] at hr'
  refine ⟨by rw [hr'.lenL, hr'.good.1], by rw [hr'.lenR, hr'.good.1], fun b hb => ?_, ?_, hr'.curr.mean⟩
  · exact ⟨(hr'.left b hb).n, (hr'.left b hb).mean, (hr'.right b hb).n, (hr'.right b hb).mean⟩
  · rw [hr'.curr.n, List.length_map]

/-- The hypotheses of C03 are met by a histogram with identity bins and two batches. -/
example :
    (do let (h0, _) ← Hist.init rngQ 0 false 0 none [3, 1, 1] [] 3 0 0 .identity
        let h ← h0.addAll [([[1], [3]], [10, 4]), ([[3], [1], [3]], [6, 20, 8])]
        pure (h0.edges, h.leftPile, h.rightPile, h.currPile)).toOption
      = some (some [1, 3], [⟨2, 15, 0⟩, ⟨5, 48 / 5, 776 / 25⟩], [⟨3, 6, 1⟩, ⟨0, 0, 0⟩], ⟨5, 48 / 5, 776 / 25⟩) := by
  decide +kernel

/-- C04 fails: two batches of one target each, 0 and 2, leave variance 0 instead of 1. -/
theorem C04_refuted :
    ∃ (h0 h : Hist ℚ), Hist.init rngQ 0 false 0 none [1] [] 1 0 0 .identity = .ok (h0, 0) ∧ h0.edges = some [1] ∧
      h0.addAll [([[1]], [0]), ([[1]], [2])] = .ok h ∧ (h.leftPile.getD 0 Pile.zero).var = 0 ∧
      variance (labelsLe (samplesOf 0 [([[1]], [0]), ([[1]], [2])]) (1 : ℚ)) = 1 := by
  refine ⟨_, _, rfl, rfl, rfl, ?_, ?_⟩ <;> decide +kernel

/-- C04, the part that holds: the stored variance of a pile is the population variance of its targets if every batch's
targets on that side of the edge are not all equal (or there are none). Missing for the full property: batches with equal
targets, for which the update drops a variance (see `C04_refuted`). -/
theorem C04_variances_partial (R : Rng K G) (g g' : G) (f : Nat) (uf : Option (DiscVals K)) (fData : List K)
    (nb : Nat) (lo hi : K) (bt : BinType) (h0 h : Hist K) (edges : List K) (Bs : List (List (List K) × List K))
    (hargs : BinArgs bt uf nb lo hi) (hinit : Hist.init R g false f uf fData [] nb lo hi bt = .ok (h0, g'))
    (hedges : h0.edges = some edges) (hadd : h0.addAll Bs = .ok h) (b : Nat) (hb : b < edges.length) :
    ((∀ B ∈ Bs, labelsLe (batchSamples f B) edges[b] ≠ [] → variance (labelsLe (batchSamples f B) edges[b]) ≠ 0) →
      (h.leftPile.getD b Pile.zero).var = variance (labelsLe (samplesOf f Bs) edges[b])) ∧
    ((∀ B ∈ Bs, labelsGt (batchSamples f B) edges[b] ≠ [] → variance (labelsGt (batchSamples f B) edges[b]) ≠ 0) →
      (h.rightPile.getD b Pile.zero).var = variance (labelsGt (samplesOf f Bs) edges[b])) := by
  obtain ⟨e1, _, _, _⟩ := init_fields hinit
  have hr := regRep_of_init hargs hinit hedges
  obtain ⟨vL, vR⟩ := reg_addAll_var Bs hr hadd b hb
  rw [e1, List.nil_append] at vL vR
  constructor
  · intro hB
    refine vL ?_ (by simp [labelsLe]) ?_
    · rw [(hr.left b hb).zero rfl]; simp [Pile.zero, labelsLe, variance, mean]
    · intro p hp
      obtain ⟨B, hBm, rfl⟩ := List.mem_map.1 hp
      exact hB B hBm
  · intro hB
    refine vR ?_ (by simp [labelsGt]) ?_
    · rw [(hr.right b hb).zero rfl]; simp [Pile.zero, labelsGt, variance, mean]
    · intro p hp
      obtain ⟨B, hBm, rfl⟩ := List.mem_map.1 hp
      exact hB B hBm

/-- C04, the part that holds: after a single `add` call every stored variance is the population variance. -/
theorem C04_single_batch_partial (R : Rng K G) (g g' : G) (f : Nat) (uf : Option (DiscVals K)) (fData : List K)
    (nb : Nat) (lo hi : K) (bt : BinType) (h0 h : Hist K) (edges : List K) (X : List (List K)) (Y : List K)
    (hargs : BinArgs bt uf nb lo hi) (hinit : Hist.init R g false f uf fData [] nb lo hi bt = .ok (h0, g'))
    (hedges : h0.edges = some edges) (hadd : h0.add X Y = .ok h) :
    (∀ b (hb : b < edges.length),
      (h.leftPile.getD b Pile.zero).var = variance (labelsLe (batchSamples f (X, Y)) edges[b]) ∧
      (h.rightPile.getD b Pile.zero).var = variance (labelsGt (batchSamples f (X, Y)) edges[b])) ∧
    h.currPile.var = variance Y := by
  obtain ⟨e1, _, _, _⟩ := init_fields hinit
  have hr := regRep_of_init hargs hinit hedges
  obtain ⟨_, _, _, hx⟩ := hr.add hadd
  have hx := hx rfl
  have hlen := (add_reg_ok hr.isReg hr.edges_eq hadd).1
  rw [e1] at hx
  refine ⟨fun b hb => ⟨hx.left b hb, hx.right b hb⟩, ?_⟩
  rw [hx.curr]
  unfold batchSamples
  rw [List.map_snd_zip (by simp [hlen])]

/-- C04, the exact boundary: if the stored variance of a pile is right before an `add`, it is right after it exactly when
the targets already on that side of the edge and the new ones are `Mergeable`. Since `Mergeable` fails for two constant
groups with different means, the full property is false (`C04_refuted`). -/
theorem C04_step_partial (R : Rng K G) (g g' : G) (f : Nat) (uf : Option (DiscVals K)) (fData : List K)
    (nb : Nat) (lo hi : K) (bt : BinType) (h0 h h' : Hist K) (edges : List K) (Bs : List (List (List K) × List K))
    (X : List (List K)) (Y : List K)
    (hargs : BinArgs bt uf nb lo hi) (hinit : Hist.init R g false f uf fData [] nb lo hi bt = .ok (h0, g'))
    (hedges : h0.edges = some edges) (hbefore : h0.addAll Bs = .ok h) (hadd : h.add X Y = .ok h') :
    (∀ b (hb : b < edges.length),
      ((h.leftPile.getD b Pile.zero).var = variance (labelsLe (samplesOf f Bs) edges[b]) →
        ((h'.leftPile.getD b Pile.zero).var
            = variance (labelsLe (samplesOf f Bs) edges[b] ++ labelsLe (batchSamples f (X, Y)) edges[b]) ↔
          Mergeable (labelsLe (samplesOf f Bs) edges[b]) (labelsLe (batchSamples f (X, Y)) edges[b]))) ∧
      ((h.rightPile.getD b Pile.zero).var = variance (labelsGt (samplesOf f Bs) edges[b]) →
        ((h'.rightPile.getD b Pile.zero).var
            = variance (labelsGt (samplesOf f Bs) edges[b] ++ labelsGt (batchSamples f (X, Y)) edges[b]) ↔
          Mergeable (labelsGt (samplesOf f Bs) edges[b]) (labelsGt (batchSamples f (X, Y)) edges[b])))) ∧
    (h.currPile.var = variance ((samplesOf f Bs).map Prod.snd) →
      (h'.currPile.var = variance ((samplesOf f Bs).map Prod.snd ++ Y) ↔
        Mergeable ((samplesOf f Bs).map Prod.snd) Y)) := by
  obtain ⟨e1, _, _, _⟩ := init_fields hinit
  have hr := regRep_of_init hargs hinit hedges
  obtain ⟨hr', e2, _⟩ := hr.addAll Bs hbefore
  rw [e1, List.nil_append] at hr'
  refine ⟨fun b hb => ?_, fun hv => ?_⟩
  · obtain ⟨pL, pR⟩ := reg_add_piles hr' hadd b hb
    rw [e2, e1] at pL pR
    rw [pL, pR]
    exact ⟨fun hv => update_var_iff (hr'.left b hb) hv, fun hv => update_var_iff (hr'.right b hb) hv⟩
  · obtain ⟨_, _, bins, _, rfl⟩ := add_reg_ok hr'.isReg hr'.edges_eq hadd
    exact update_var_iff hr'.curr hv

/-- Both answers of `C04_step_partial` occur: after the batch 0, 2 the batch 5, 9 keeps the variance right, and after
the batch 3, 3 the batch 0, 2 does not. The last clause is a coincidence: six times 2, then -1 and 1. -/
example :
    Mergeable [(0 : ℚ), 2] [5, 9] ∧ ¬ Mergeable [(3 : ℚ), 3] [0, 2] ∧ Mergeable [(3 : ℚ), 3] [] ∧
    Mergeable [(3 : ℚ), 3] [3, 3, 3] ∧ ¬ Mergeable [(3 : ℚ)] [4] ∧
    Mergeable [(2 : ℚ), 2, 2, 2, 2, 2] [-1, 1] := by
  unfold Mergeable
  decide +kernel

/-- The hypotheses of the two partial theorems are met: two batches, both spread out on both sides of the edge 1. -/
example :
    let Bs : List (List (List ℚ) × List ℚ) := [([[1], [1], [3], [3]], [0, 2, 5, 9]), ([[3], [1], [1], [3]], [6, 20, 8, 7])]
    (do let (h0, _) ← Hist.init rngQ 0 false 0 none [3, 1, 1] [] 3 0 0 .identity
        let h ← h0.addAll Bs
        pure (h0.edges, h.leftPile.map Pile.var)).toOption = some (some [1, 3], [243 / 4, 2023 / 64]) ∧
    (∀ B ∈ Bs, labelsLe (batchSamples 0 B) 1 ≠ [] → variance (labelsLe (batchSamples 0 B) 1) ≠ 0) := by
  decide +kernel

/-- C05. In a LINEAR histogram with at least two bins and `min < max`, a value is put at or left of edge `b` exactly when
it is at most the `b`-th of `num_bins` equally spaced edges from `min` to `max`. -/
theorem C05_linear_lookup (R : Rng K G) (g g' : G) (isCls : Bool) (f : Nat) (uf : Option (DiscVals K))
    (fData classes : List K) (nb : Nat) (lo hi : K) (h : Hist K) (hlt : lo < hi) (hnb : 2 ≤ nb)
    (hinit : Hist.init R g isCls f uf fData classes nb lo hi .linear = .ok (h, g')) :
    ∃ edges, h.edges = some edges ∧ edges.length = nb ∧
      ∀ (v : K) (b : Nat) (hb : b < edges.length),
        edges[b] = lo + (b : K) * ((hi - lo) / ((nb : K) - 1)) ∧ (h.getBin edges v ≤ b ↔ v ≤ edges[b]) := by
  have hn1 : nb ≠ 1 := by omega
  unfold Hist.init makeEdges at hinit
  rw [if_neg hlt.ne] at hinit
  cases hinit
  refine ⟨_, rfl, length_linspace _ _ _, fun v b hb => ⟨?_, ?_⟩⟩
  · simp only [linspace, if_neg hn1, List.getElem_map, List.getElem_range]
  · exact (goodBins_linear (h := Hist.mk' isCls f classes .linear lo hi (some _) nb) rfl hn1 hlt).2 v b hb

example : (Hist.init rngQ 0 true 0 none [] [0, 1] 5 (-1) 3 .linear).toOption.map (fun r => r.1.edges)
    = some (some [-1, 0, 1, 2, 3]) := by decide +kernel

end FF
