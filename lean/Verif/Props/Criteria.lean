import Verif.Proofs.MseVar
import Verif.Model.Instances

/-!
# Properties of the impurity criteria (C06–C12)
-/

set_option linter.unusedSectionVars false

namespace FF

open Spec

variable {K : Type} [Field K] [LinearOrder K] [IsStrictOrderedRing K] [FloorRing K] [NpFun K] {G : Type}

/-- C06. `get_gini` of the class counts of a list of labels is `1 - Σ freq²`; for a non-empty list it lies in
`[0, 1 - 1/k]` for `k` classes and is 0 exactly for a pure list; for an empty list it is 1. -/
theorem C06_gini_value (classes ys : List K) (pop : Option Nat) (hn : classes.Nodup) (hk : classes ≠ [])
    (hy : ∀ y ∈ ys, y ∈ classes) :
    ∃ v, getGini (classes.map (fun c => ys.count c)) ys.length pop = .ok (.fin (gini ys), v) ∧
      (ys ≠ [] → 0 ≤ gini ys ∧ gini ys ≤ 1 - 1 / (classes.length : K) ∧ (gini ys = 0 ↔ ∃ c, ∀ y ∈ ys, y = c)) ∧
      (ys = [] → gini ys = 1) := by
  obtain ⟨v, hv⟩ := clsCrit_gini (K := K) classes.length (List.length_pos_of_ne_nil hk) classes ys pop hn rfl hy
  refine ⟨v, hv, fun h => ⟨gini_nonneg h, gini_le hn hy h, gini_eq_zero_iff h⟩, ?_⟩
  rintro rfl
  exact gini_nil

example : (getGini [2, 1] 3 none : Except Err (XF ℚ × XF ℚ)).toOption.map Prod.fst = some (.fin (4 / 9)) ∧
    gini ([5, 7, 5] : List ℚ) = 4 / 9 ∧ ([5, 7] : List ℚ).map (fun c => ([5, 7, 5] : List ℚ).count c) = [2, 1] := by
  decide +kernel

/-- C07. Whatever samples have been inserted in a classification histogram, the Gini change computed for each requested
edge is the true change of the weighted Gini impurity when separating these samples at that edge, and it is never positive.
In particular this holds when every datapoint of a node has been inserted. -/
theorem C07_gini_reduction (R : Rng K G) (g g' : G) (f : Nat) (uf : Option (DiscVals K)) (fData classes : List K)
    (nb : Nat) (lo hi : K) (bt : BinType) (h0 h : Hist K) (edges : List K) (Bs : List (List (List K) × List K))
    (bins : List Nat) (pop : Option Nat) (hargs : BinArgs bt uf nb lo hi) (hclasses : classes.Nodup)
    (hinit : Hist.init R g true f uf fData classes nb lo hi bt = .ok (h0, g'))
    (hedges : h0.edges = some edges) (hadd : h0.addAll Bs = .ok h) (hS : samplesOf f Bs ≠ [])
    (hbins : bins ≠ []) (hlt : ∀ b ∈ bins, b < edges.length) (hlen : bins.length ≤ edges.length) :
    ∃ rs, impurityReductions h bins .gini pop = .ok rs ∧
      rs.map Prod.fst = bins.map (fun b => .fin (change gini (samplesOf f Bs) (edges.getD b 0))) ∧
      ∀ b ∈ bins, change gini (samplesOf f Bs) (edges.getD b 0) ≤ 0 := by
  obtain ⟨e1, e2, e3, _⟩ := init_fields hinit
  have hr := clsRep_of_init hargs hclasses hinit hedges
  obtain ⟨hr', _, f2, _⟩ := hr.addAll Bs hadd
  rw [e1, List.nil_append] at hr'
  have hc : 0 < h.classes.length := by
    obtain ⟨s, hs⟩ := List.exists_mem_of_ne_nil _ hS
    exact List.length_pos_of_mem (hr'.labels s hs)
  have hred := clsReductions_ok hr' hS (clsCrit_gini _ hc) pop hbins hlt (by rw [← hr'.good.1]; exact hlen)
  refine ⟨_, by unfold impurityReductions; rw [hr'.isCls, if_pos rfl]; exact hred, ?_, ?_⟩
  · simp [List.map_map, Function.comp_def]
  · intro b _
    have := gini_change_nonpos _ _ _ (labels_perm (samplesOf f Bs) (edges.getD b 0))
    rw [List.length_map] at this
    exact this

example :
    (do let (h0, _) ← Hist.init rngQ 0 true 0 none [] [0, 2] 3 0 10 .linear
        let h ← h0.addAll [([[1], [5]], [0, 2]), ([[7], [12], [-3]], [0, 0, 2])]
        let rs ← impurityReductions h [0, 1, 2] .gini (some 9)
        pure (rs.map Prod.fst)).toOption = some [.fin (-9 / 50), .fin (-16 / 75), .fin (-2 / 25)] := by decide +kernel

/-- C08. When all targets have been inserted once (one `add` call with all of them) and the population size is the number
of samples, the change in MSE computed for each requested edge is the true change of the weighted variance, and it is never
positive. -/
theorem C08_mse_reduction (R : Rng K G) (g g' : G) (f : Nat) (uf : Option (DiscVals K)) (fData : List K)
    (nb : Nat) (lo hi : K) (bt : BinType) (h0 h : Hist K) (edges : List K) (X : List (List K)) (Y : List K)
    (bins : List Nat) (hargs : BinArgs bt uf nb lo hi)
    (hinit : Hist.init R g false f uf fData [] nb lo hi bt = .ok (h0, g'))
    (hedges : h0.edges = some edges) (hadd : h0.add X Y = .ok h) (hX : X ≠ [])
    (hbins : bins ≠ []) (hlt : ∀ b ∈ bins, b < edges.length) (hlen : bins.length ≤ edges.length) :
    ∃ rs, impurityReductions h bins .mse (some X.length) = .ok rs ∧
      rs.map Prod.fst = bins.map (fun b => .fin (change variance (batchSamples f (X, Y)) (edges.getD b 0))) ∧
      ∀ b ∈ bins, change variance (batchSamples f (X, Y)) (edges.getD b 0) ≤ 0 := by
  obtain ⟨e1, _, _, _⟩ := init_fields hinit
  have hr := regRep_of_init hargs hinit hedges
  obtain ⟨hr', _, _, hx⟩ := hr.add hadd
  have hx := hx rfl
  have hl := (add_reg_ok hr.isReg hr.edges_eq hadd).1
  rw [e1, List.nil_append] at hr'
  rw [e1] at hx
  have hSl : (batchSamples f (X, Y)).length = X.length := by unfold batchSamples; simp [← hl]
  have hS : batchSamples f (X, Y) ≠ [] := by
    intro h0
    rw [h0] at hSl
    exact hX (List.length_eq_zero_iff.1 hSl.symm)
  rw [← hSl]
  have hred := regReductions_ok hr' hS (some (batchSamples f (X, Y)).length) (fun s hs => by cases hs; exact le_refl _) hbins hlt (by rw [← hr'.good.1]; exact hlen)
  refine ⟨_, by unfold impurityReductions; rw [hr'.isReg, if_neg (by simp)]; exact hred, ?_, ?_⟩
  · rw [List.map_map]
    apply List.map_congr_left
    intro b hb
    show XF.fin (regRed h (batchSamples f (X, Y)).length (some (batchSamples f (X, Y)).length) b) = _
    rw [regRed_full hr' hx hS b (hlt b hb)]
  · intro b _
    have := variance_change_nonpos _ _ _ (labels_perm (batchSamples f (X, Y)) (edges.getD b 0))
    rw [List.length_map] at this
    exact this

example :
    (do let (h0, _) ← Hist.init rngQ 0 false 0 none [3, 1, 2, 1] [] 4 0 0 .identity
        let h ← h0.add [[3], [1], [2], [1]] [10, 4, 6, 20]
        let rs ← impurityReductions h [0, 1, 2] .mse (some 4)
        pure (h0.edges, rs)).toOption
      = some (some [1, 2, 3], [(.fin (-4), .fin 0), (.fin 0, .fin 0), (.fin 0, .fin 0)]) := by decide +kernel

/-- C09 fails: with three or more classes `get_entropy(..., ret_var=True)` always raises. -/
theorem C09_refuted (counts : List Nat) (n : Nat) (pop : Option Nat) (h : 3 ≤ counts.length) :
    (getEntropy counts n pop : Except Err (XF K × XF K)) = .error .valueError := by
  unfold getEntropy entropyVar
  match counts, h with
  | a :: b :: c :: cs, _ => rfl

/-- C09, the part that holds: with at most two classes the entropy of the labels and a variance are returned. Missing for
the full property: three or more classes (see `C09_refuted`). -/
theorem C09_entropy_partial (classes ys : List K) (pop : Option Nat) (hn : classes.Nodup) (hk : classes.length ≤ 2)
    (hy : ∀ y ∈ ys, y ∈ classes) :
    ∃ v, getEntropy (classes.map (fun c => ys.count c)) ys.length pop = .ok (.fin (entropy NpFun.log ys), v) :=
  clsCrit_entropy (K := K) classes.length hk classes ys pop hn rfl hy

example : (getEntropy [2, 1] 3 none : Except Err (XF ℚ × XF ℚ)).toOption.map Prod.fst = some (.fin (4 / 9)) ∧
    ([5, 7] : List ℚ).map (fun c => ([5, 7, 5] : List ℚ).count c) = [2, 1] := by decide +kernel

/-- An edge has all samples on one side. -/
def OneSided (S : List (K × K)) (t : K) : Prop := (∀ s ∈ S, s.1 ≤ t) ∨ (∀ s ∈ S, t < s.1)

theorem OneSided.cases {S : List (K × K)} {t : K} (h : OneSided S t) : labelsGt S t = [] ∨ labelsLe S t = [] := by
  rcases h with h | h
  · left
    unfold labelsGt
    rw [List.map_eq_nil_iff, List.filter_eq_nil_iff]
    intro s hs
    simpa using h s hs
  · right
    unfold labelsLe
    rw [List.map_eq_nil_iff, List.filter_eq_nil_iff]
    intro s hs
    simpa using h s hs

theorem change_oneSided (imp : List K → K) {S : List (K × K)} (hS : S ≠ []) {t : K} (h : OneSided S t) :
    change imp S t = 0 := by
  have hSl : (S.length : K) ≠ 0 := by
    have : S.length ≠ 0 := by simpa using hS
    exact_mod_cast this
  unfold change
  rcases h.cases with h | h
  · rw [labelsLe_eq_all h, h, List.length_map, div_self hSl]; simp
  · rw [labelsGt_eq_all h, h, List.length_map, div_self hSl]; simp

/-- C10, classification. If all samples inserted so far lie on one side of an edge, the impurity change computed for that
edge is exactly 0: for Gini, and for entropy when it does not raise (at most two classes). -/
theorem C10_one_sided_classification (R : Rng K G) (g g' : G) (f : Nat) (uf : Option (DiscVals K))
    (fData classes : List K) (nb : Nat) (lo hi : K) (bt : BinType) (h0 h : Hist K) (edges : List K)
    (Bs : List (List (List K) × List K)) (bins : List Nat) (m : Criterion) (pop : Option Nat)
    (hargs : BinArgs bt uf nb lo hi) (hclasses : classes.Nodup)
    (hinit : Hist.init R g true f uf fData classes nb lo hi bt = .ok (h0, g'))
    (hedges : h0.edges = some edges) (hadd : h0.addAll Bs = .ok h) (hS : samplesOf f Bs ≠ [])
    (hbins : bins ≠ []) (hlt : ∀ b ∈ bins, b < edges.length) (hlen : bins.length ≤ edges.length)
    (hm : m = .gini ∨ (m = .entropy ∧ classes.length ≤ 2)) :
    ∃ rs, impurityReductions h bins m pop = .ok rs ∧ rs.length = bins.length ∧
      ∀ i (hi : i < bins.length) (hi' : i < rs.length), OneSided (samplesOf f Bs) (edges.getD bins[i] 0) →
        rs[i].1 = .fin 0 := by
  obtain ⟨e1, e2, e3, _⟩ := init_fields hinit
  have hr := clsRep_of_init hargs hclasses hinit hedges
  obtain ⟨hr', _, f2, _⟩ := hr.addAll Bs hadd
  rw [e1, List.nil_append] at hr'
  have hc : 0 < h.classes.length := by
    obtain ⟨s, hs⟩ := List.exists_mem_of_ne_nil _ hS
    exact List.length_pos_of_mem (hr'.labels s hs)
  obtain ⟨imp, hcrit⟩ : ∃ imp, ClsCrit (K := K) m imp h.classes.length := by
    rcases hm with rfl | ⟨rfl, hk⟩
    · exact ⟨_, clsCrit_gini _ hc⟩
    · exact ⟨_, clsCrit_entropy _ (by rw [f2, e2]; exact hk)⟩
  have hred := clsReductions_ok hr' hS hcrit pop hbins hlt (by rw [← hr'.good.1]; exact hlen)
  refine ⟨_, by unfold impurityReductions; rw [hr'.isCls, if_pos rfl]; exact hred, by simp, ?_⟩
  intro i hi hi' ho
  rw [List.getElem_map]
  rw [change_oneSided imp hS ho]

/-- C10, regression. If all samples inserted so far lie on one side of an edge, the change in MSE computed for that edge is
exactly 0, for any sampling history and any population size that is not smaller than the number of samples. -/
theorem C10_one_sided_regression (R : Rng K G) (g g' : G) (f : Nat) (uf : Option (DiscVals K)) (fData : List K)
    (nb : Nat) (lo hi : K) (bt : BinType) (h0 h : Hist K) (edges : List K)
    (Bs : List (List (List K) × List K)) (bins : List Nat) (pop : Option Nat) (hargs : BinArgs bt uf nb lo hi)
    (hinit : Hist.init R g false f uf fData [] nb lo hi bt = .ok (h0, g'))
    (hedges : h0.edges = some edges) (hadd : h0.addAll Bs = .ok h) (hS : samplesOf f Bs ≠ [])
    (hbins : bins ≠ []) (hlt : ∀ b ∈ bins, b < edges.length) (hlen : bins.length ≤ edges.length)
    (hpop : ∀ s, pop = some s → (samplesOf f Bs).length ≤ s) :
    ∃ rs, impurityReductions h bins .mse pop = .ok rs ∧ rs.length = bins.length ∧
      ∀ i (hi : i < bins.length) (hi' : i < rs.length), OneSided (samplesOf f Bs) (edges.getD bins[i] 0) →
        rs[i].1 = .fin 0 := by
  obtain ⟨e1, _, _, _⟩ := init_fields hinit
  have hr := regRep_of_init hargs hinit hedges
  obtain ⟨hr', _, _⟩ := hr.addAll Bs hadd
  rw [e1, List.nil_append] at hr'
  have hred := regReductions_ok hr' hS _ hpop hbins hlt (by rw [← hr'.good.1]; exact hlen)
  refine ⟨_, by unfold impurityReductions; rw [hr'.isReg, if_neg (by simp)]; exact hred, by simp, ?_⟩
  intro i hi hi' ho
  rw [List.getElem_map]
  show XF.fin _ = _
  congr 1
  exact regRed_oneSided hr' hS pop _ (hlt _ (List.getElem_mem hi)) ho.cases

example :
    (do let (h0, _) ← Hist.init rngQ 0 false 0 none [] [] 3 0 10 .linear
        let h ← h0.addAll [([[1], [5]], [0, 2]), ([[7], [9], [3]], [4, 4, 9])]
        let rs ← impurityReductions h [0, 1, 2] .mse (some 9)
        pure (rs.map Prod.fst)).toOption = some [.fin 0, .fin (-2078 / 225), .fin 0] := by decide +kernel

/-- C11. For every pile with a non-negative second moment and every population size that is not smaller than the sample
size, and also without a population size (sampling with replacement), `get_mse` returns two finite numbers, both
non-negative; the square root of the second is a finite non-negative number. -/
theorem C11_mse_variance (p : Pile K) (pop : Option Nat) (hv : 0 ≤ p.var) (hp : ∀ s, pop = some s → p.n ≤ s) :
    ∃ e v w, getMse p pop = .ok (.fin e, .fin v) ∧ 0 ≤ e ∧ 0 ≤ v ∧ XF.sqrt (.fin v) = .fin w ∧ 0 ≤ w := by
  have h0 := mseVarK_nonneg p pop hp
  refine ⟨_, _, NpFun.sqrt (mseVarK p pop), getMse_ok p pop hp, mseK_nonneg p pop hv hp, h0, ?_, NpFun.sqrt_nonneg _ h0⟩
  simp only [XF.sqrt, if_neg (not_lt.2 h0)]

example : (getMse (⟨3, 1, 2⟩ : Pile ℚ) (some 10)).toOption = some (.fin (27 / 10), .fin (36 / 5)) ∧
    0 < mseVarK (⟨3, 1, 2⟩ : Pile ℚ) (some 10) := by decide +kernel

/-- C12, second half, classification. When the samples inserted are the whole population, the variance of every computed
change is 0 or NaN; so if the bounds `estimate ± sqrt(variance)` are numbers they coincide. -/
theorem C12_single_point_classification (R : Rng K G) (g g' : G) (f : Nat) (uf : Option (DiscVals K))
    (fData classes : List K) (nb : Nat) (lo hi : K) (bt : BinType) (h0 h : Hist K) (edges : List K)
    (Bs : List (List (List K) × List K)) (bins : List Nat)
    (hargs : BinArgs bt uf nb lo hi) (hclasses : classes.Nodup)
    (hinit : Hist.init R g true f uf fData classes nb lo hi bt = .ok (h0, g'))
    (hedges : h0.edges = some edges) (hadd : h0.addAll Bs = .ok h) (hS : samplesOf f Bs ≠ [])
    (hbins : bins ≠ []) (hlt : ∀ b ∈ bins, b < edges.length) (hlen : bins.length ≤ edges.length) :
    ∃ rs, impurityReductions h bins .gini (some (samplesOf f Bs).length) = .ok rs ∧
      ∀ r ∈ rs, ∀ l u, r.1.sub r.2.sqrt = .fin l → r.1.add r.2.sqrt = .fin u → r.1 = .fin l ∧ l = u := by
  obtain ⟨e1, e2, e3, _⟩ := init_fields hinit
  have hr := clsRep_of_init hargs hclasses hinit hedges
  obtain ⟨hr', _, f2, _⟩ := hr.addAll Bs hadd
  rw [e1, List.nil_append] at hr'
  have hc : 0 < h.classes.length := by
    obtain ⟨s, hs⟩ := List.exists_mem_of_ne_nil _ hS
    exact List.length_pos_of_mem (hr'.labels s hs)
  have hred := clsReductions_ok hr' hS (clsCrit_gini _ hc) (some (samplesOf f Bs).length) hbins hlt (by rw [← hr'.good.1]; exact hlen)
  refine ⟨_, by unfold impurityReductions; rw [hr'.isCls, if_pos rfl]; exact hred, ?_⟩
  intro r hrm l u hl hu
  obtain ⟨b, _, rfl⟩ := List.mem_map.1 hrm
  rcases clsVarRed_full .gini h.classes _ hS (edges.getD b 0) with hz | hz
  · simp only [hz, XF.sqrt, lt_irrefl, if_false, NpFun.sqrt_zero, XF.sub_fin, XF.add_fin, sub_zero, add_zero,
      XF.fin.injEq] at hl hu ⊢
    exact ⟨hl, hl.symm.trans hu⟩
  · simp only [hz] at hl
    cases hl

/-- C12, second half, regression. When the samples inserted are the whole population, the variance of every computed
change is 0 and the bounds `estimate ± sqrt(variance)` are the estimate. -/
theorem C12_single_point_regression (R : Rng K G) (g g' : G) (f : Nat) (uf : Option (DiscVals K)) (fData : List K)
    (nb : Nat) (lo hi : K) (bt : BinType) (h0 h : Hist K) (edges : List K)
    (Bs : List (List (List K) × List K)) (bins : List Nat) (hargs : BinArgs bt uf nb lo hi)
    (hinit : Hist.init R g false f uf fData [] nb lo hi bt = .ok (h0, g'))
    (hedges : h0.edges = some edges) (hadd : h0.addAll Bs = .ok h) (hS : samplesOf f Bs ≠ [])
    (hbins : bins ≠ []) (hlt : ∀ b ∈ bins, b < edges.length) (hlen : bins.length ≤ edges.length) :
    ∃ rs, impurityReductions h bins .mse (some (samplesOf f Bs).length) = .ok rs ∧
      ∀ r ∈ rs, r.1.sub r.2.sqrt = r.1 ∧ r.1.add r.2.sqrt = r.1 ∧ ∃ e, r.1 = .fin e := by
  obtain ⟨e1, _, _, _⟩ := init_fields hinit
  have hr := regRep_of_init hargs hinit hedges
  obtain ⟨hr', _, _⟩ := hr.addAll Bs hadd
  rw [e1, List.nil_append] at hr'
  have hred := regReductions_ok hr' hS (some (samplesOf f Bs).length) (fun s hs => by cases hs; exact le_refl _) hbins hlt (by rw [← hr'.good.1]; exact hlen)
  refine ⟨_, by unfold impurityReductions; rw [hr'.isReg, if_neg (by simp)]; exact hred, ?_⟩
  intro r hrm
  obtain ⟨b, _, rfl⟩ := List.mem_map.1 hrm
  rw [regVarRed_full hr' hS b]
  simp [XF.sqrt, NpFun.sqrt_zero]

example :
    (do let (h0, _) ← Hist.init rngQ 0 true 0 none [] [0, 2] 3 0 10 .linear
        let h ← h0.addAll [([[1], [5]], [0, 2]), ([[7], [8], [-3]], [0, 0, 2])]
        impurityReductions h [0, 1, 2] .gini (some 5)).toOption
      = some [(.fin (-9 / 50), .nan), (.fin (-16 / 75), .fin 0), (.fin 0, .nan)] := by decide +kernel

end FF
