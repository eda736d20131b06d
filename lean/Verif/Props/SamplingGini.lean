import Verif.Proofs.SamplingGini
import Verif.Model.Instances

/-!
# Gini index and entropy of random samples (C115, C116)
-/

set_option linter.unusedSectionVars false

namespace FF

open Spec

variable {K : Type} [Field K] [LinearOrder K] [IsStrictOrderedRing K] [FloorRing K] [NpFun K]

/-- C115, sampling with replacement. Over all sequences of `n` draws the frequency of each class is right on average, with average
squared error `p(1-p)/n`; the Gini index that `get_gini` returns is on average the true one times `1 - 1/n`. -/
theorem C115_with (classes ys : List K) (n : Nat) (hc : classes.Nodup) (hy : ys ≠ []) (hmem : ∀ y ∈ ys, y ∈ classes) (hn : 1 ≤ n) :
    (∀ c, average (fun s => freq (sampleWith ys n s) c) = freq ys c ∧
      average (fun s => (freq (sampleWith ys n s) c - freq ys c) ^ 2) = freq ys c * (1 - freq ys c) / (n : K)) ∧
    ∃ e : (Fin n → Fin ys.length) → K,
      (∀ s, ∃ v, getGini (classes.map (fun c => (sampleWith ys n s).count c)) n none = .ok (.fin (e s), v)) ∧
      average e = gini ys * (1 - 1 / (n : K)) := by
  have hn0 : (n : K) ≠ 0 := by exact_mod_cast (by omega : n ≠ 0)
  have hN := length_ne_zero' hy
  have : Nonempty (Fin ys.length) := ⟨⟨0, List.length_pos_of_ne_nil hy⟩⟩
  have hf := fair_with (K := K) n ys.length
  have hf1 : ((ys.length : K) - 0 * (n : K)) / ((ys.length : K) - 0) = 1 := by rw [zero_mul, sub_zero, div_self hN]
  refine ⟨fun c => ?_, fun s => gini (sampleWith ys n s), fun s => ?_, ?_⟩
  · have h := average_freq hf hy hn0 (by simpa using hN) c
    rw [hf1, mul_one] at h
    exact h
  · have hm : ∀ y ∈ sampleWith ys n s, y ∈ classes := by
      intro y hyy
      unfold sampleWith at hyy
      rw [List.mem_ofFn'] at hyy
      obtain ⟨i, rfl⟩ := hyy
      exact hmem _ (List.get_mem _ _)
    have hcl : classes.map (fun c => (sampleWith ys n s).count c) ≠ [] := by
      obtain ⟨y, hyy⟩ := List.exists_mem_of_ne_nil _ hy
      have := List.ne_nil_of_mem (hmem y hyy)
      simpa using this
    obtain ⟨v, hv⟩ := getGini_ok (K := K) (classes.map (fun c => (sampleWith ys n s).count c)) n none hcl
    refine ⟨v, ?_⟩
    rw [hv]
    have h := giniK_countsOf hc hm
    have hl : (sampleWith ys n s).length = n := by simp [sampleWith]
    rw [hl] at h
    dsimp only
    rw [← h]
    rfl
  · have h := average_gini hf hy hn0 (by simpa using hN)
    rw [hf1] at h
    refine Eq.trans h ?_
    ring

/-- C115, sampling without replacement. The average squared error of the frequencies is `p(1-p)/n · (N-n)/(N-1)`, and the Gini index
of the sample is on average the true one times `(1 - 1/n)·N/(N-1)`. -/
theorem C115_without (classes ys : List K) (n : Nat) (hc : classes.Nodup) (hmem : ∀ y ∈ ys, y ∈ classes) (hn : 1 ≤ n)
    (hN : n ≤ ys.length) (h2 : 2 ≤ ys.length) :
    (∀ c, average (fun σ => freq (sampleWithout ys n σ) c) = freq ys c ∧
      average (fun σ => (freq (sampleWithout ys n σ) c - freq ys c) ^ 2)
        = freq ys c * (1 - freq ys c) / (n : K) * (((ys.length : K) - n) / ((ys.length : K) - 1))) ∧
    ∃ e : Equiv.Perm (Fin ys.length) → K,
      (∀ σ, ∃ v, getGini (classes.map (fun c => (sampleWithout ys n σ).count c)) n (some ys.length) = .ok (.fin (e σ), v)) ∧
      average e = gini ys * ((1 - 1 / (n : K)) * ((ys.length : K) / ((ys.length : K) - 1))) := by
  have hn0 : (n : K) ≠ 0 := by exact_mod_cast (by omega : n ≠ 0)
  have hy : ys ≠ [] := by rintro rfl; simp at h2
  have h2' : (2 : K) ≤ (ys.length : K) := by exact_mod_cast h2
  have hN1 : (ys.length : K) - 1 ≠ 0 := by intro h; linarith
  have hf := fair_without (K := K) hN
  refine ⟨fun c => ?_, fun σ => gini (sampleWithout ys n σ), fun σ => ?_, ?_⟩
  · have h := average_freq hf hy hn0 hN1 c
    simp only [one_mul] at h
    simp only [sampleWithout_eq ys n hN]
    exact h
  · have hm : ∀ y ∈ sampleWithout ys n σ, y ∈ classes := by
      intro y hyy
      rw [sampleWithout_eq ys n hN, List.mem_ofFn'] at hyy
      obtain ⟨i, rfl⟩ := hyy
      exact hmem _ (List.get_mem _ _)
    have hcl : classes.map (fun c => (sampleWithout ys n σ).count c) ≠ [] := by
      obtain ⟨y, hyy⟩ := List.exists_mem_of_ne_nil _ hy
      have := List.ne_nil_of_mem (hmem y hyy)
      simpa using this
    obtain ⟨v, hv⟩ := getGini_ok (K := K) (classes.map (fun c => (sampleWithout ys n σ).count c)) n (some ys.length) hcl
    refine ⟨v, ?_⟩
    rw [hv]
    have h := giniK_countsOf hc hm
    have hl : (sampleWithout ys n σ).length = n := by simp [sampleWithout, hN]
    rw [hl] at h
    dsimp only
    rw [← h]
    rfl
  · have h := average_gini hf hy hn0 hN1
    simp only [sampleWithout_eq ys n hN]
    refine Eq.trans h ?_
    field_simp
    ring

/-- The averages over all samples of two labels out of four, computed one by one. -/
example :
    average (fun s => gini (sampleWith ([0, 0, 1, 2] : List ℚ) 2 s)) = 5 / 8 * (1 - 1 / 2) ∧
    average (fun σ => gini (sampleWithout ([0, 0, 1, 2] : List ℚ) 2 σ)) = 5 / 8 * ((1 - 1 / 2) * (4 / 3)) ∧
    gini ([0, 0, 1, 2] : List ℚ) = 5 / 8 := by
  decide +kernel

/-! ### C116 -/

/-- What is left of the error of the Gini index after its linear part. -/
theorem gini_taylor (ys l : List K) (h : ∀ y ∈ l, y ∈ ys) :
    gini l = gini ys + giniLinear ys l - (ys.dedup.map (fun c => (freq l c - freq ys c) ^ 2)).sum := by
  rw [gini_eq (List.nodup_dedup ys) (fun y hy => List.mem_dedup.2 (h y hy)), gini, giniLinear]
  generalize ys.dedup = cs
  have : ∀ cs : List K, (cs.map (fun c => freq l c ^ 2)).sum = (cs.map (fun c => freq ys c ^ 2)).sum
      - (cs.map (fun c => -2 * freq ys c * (freq l c - freq ys c))).sum
      + (cs.map (fun c => (freq l c - freq ys c) ^ 2)).sum := by
    intro cs
    induction cs with
    | nil => simp
    | cons c cs ih => simp only [List.map_cons, List.sum_cons, ih]; ring
  rw [this cs]
  ring

theorem giniLinear_eq {ys l : List K} (h : ∀ y ∈ l, y ∈ ys) :
    giniLinear ys l = mean (l.map (fun c => -2 * freq ys c)) - mean (ys.map (fun c => -2 * freq ys c)) :=
  sum_weight_sub (fun c => -2 * freq ys c) (List.nodup_dedup ys) (fun y hy => List.mem_dedup.2 (h y hy))
    (fun _ hy => List.mem_dedup.2 hy)

theorem entropyLinear_eq {ys l : List K} (h : ∀ y ∈ l, y ∈ ys) :
    entropyLinear NpFun.log ys l = mean (l.map (fun c => -NpFun.log (freq ys c))) - mean (ys.map (fun c => -NpFun.log (freq ys c))) :=
  sum_weight_sub (fun c => -NpFun.log (freq ys c)) (List.nodup_dedup ys) (fun y hy => List.mem_dedup.2 (h y hy))
    (fun _ hy => List.mem_dedup.2 hy)

/-- The average squared linear error, for both kinds of sampling. -/
theorem average_linear (w : K → K) (ys : List K) (n : Nat) (hn : 1 ≤ n) (hy : ys ≠ []) :
    average (fun s => (mean ((sampleWith ys n s).map w) - mean (ys.map w)) ^ 2) = variance (ys.map w) / (n : K) * fpc none n ∧
    (n ≤ ys.length → 2 ≤ ys.length → average (fun σ => (mean ((sampleWithout ys n σ).map w) - mean (ys.map w)) ^ 2)
      = variance (ys.map w) / (n : K) * fpc (some ys.length) n) := by
  have hn0 : (n : K) ≠ 0 := by exact_mod_cast (by omega : n ≠ 0)
  have hN := length_ne_zero' hy
  constructor
  · have : Nonempty (Fin ys.length) := ⟨⟨0, List.length_pos_of_ne_nil hy⟩⟩
    have h := (average_mean (fair_with (K := K) n ys.length) hy hn0 (by simpa using hN) w).2
    rw [zero_mul, sub_zero, div_self hN] at h
    exact h
  · intro hle h2
    have h2' : (2 : K) ≤ (ys.length : K) := by exact_mod_cast h2
    have h := (average_mean (fair_without (K := K) hle) hy hn0 (by intro h; linarith) w).2
    simp only [one_mul] at h
    simp only [sampleWithout_eq ys n hle]
    exact h

theorem mem_sampleWith {ys : List K} {n : Nat} {s : Fin n → Fin ys.length} {y : K} (h : y ∈ sampleWith ys n s) : y ∈ ys := by
  unfold sampleWith at h
  rw [List.mem_ofFn'] at h
  obtain ⟨i, rfl⟩ := h
  exact List.get_mem _ _

theorem mem_sampleWithout {ys : List K} {n : Nat} {σ : Equiv.Perm (Fin ys.length)} {y : K} (h : y ∈ sampleWithout ys n σ) :
    y ∈ ys := by
  unfold sampleWithout at h
  have h := List.mem_of_mem_take h
  rw [List.mem_ofFn'] at h
  obtain ⟨i, rfl⟩ := h
  exact List.get_mem _ _

/-- The variance of the linear weights, with the last class as the reference. -/
theorem variance_weights {classes ys : List K} (L : K) (hc : classes.Nodup) (hy : ys ≠ []) (hmem : ∀ y ∈ ys, y ∈ classes) :
    variance (ys.map (fun c => -2 * freq ys c))
      = (classes.map (fun c => (-2 * freq ys c + 2 * freq ys L) ^ 2 * freq ys c)).sum
        - (classes.map (fun c => (-2 * freq ys c + 2 * freq ys L) * freq ys c)).sum ^ 2 := by
  rw [← variance_add_const hy (fun c => -2 * freq ys c) (2 * freq ys L), variance_eq_sub hy,
    ← sum_weight_freq (fun c => (-2 * freq ys c + 2 * freq ys L) ^ 2) hc hmem,
    ← sum_weight_freq (fun c => -2 * freq ys c + 2 * freq ys L) hc hmem]

theorem sum_sq_le_sq_sum_list {α : Type} (l : List α) (f : α → K) (h : ∀ a ∈ l, 0 ≤ f a) :
    (l.map (fun a => f a ^ 2)).sum ≤ (l.map f).sum ^ 2 := by
  induction l with
  | nil => simp
  | cons a l ih =>
    have h1 := ih (fun b hb => h b (List.mem_cons_of_mem _ hb))
    have h2 := h a List.mem_cons_self
    have h3 : 0 ≤ (l.map f).sum := List.sum_nonneg (by
      intro x hx
      obtain ⟨b, hb, rfl⟩ := List.mem_map.1 hx
      exact h b (List.mem_cons_of_mem _ hb))
    simp only [List.map_cons, List.sum_cons]
    nlinarith [mul_nonneg h2 h3]

theorem fpc_nonneg (n N : Nat) (h : n ≤ N) (h2 : 2 ≤ N) : (0 : K) ≤ fpc (some N) n := by
  have h' : (n : K) ≤ (N : K) := by exact_mod_cast h
  have h2' : (2 : K) ≤ (N : K) := by exact_mod_cast h2
  exact div_nonneg (by linarith) (by linarith)

/-- How the two variances differ: `Σ d²p(1-p)` is reported, `Σ d²p - (Σ dp)²` is right. -/
theorem reported_sub (classes : List K) (d p : K → K) (n F : K) :
    (classes.map (fun c => d c ^ 2 * (p c * (1 - p c) / n * F))).sum
      = ((classes.map (fun c => d c ^ 2 * p c)).sum - (classes.map (fun c => (d c * p c) ^ 2)).sum) / n * F := by
  induction classes with
  | nil => simp
  | cons c cs ih => simp only [List.map_cons, List.sum_cons, ih]; ring

/-- C116, two classes. If a sample `l` shows the frequencies of the labels `ys`, the variance that `get_gini` reports is the average
square of the linear part of the error of the Gini index, over all samples with replacement of this size; and with the population
size, over all samples without replacement.

The full property is the same for any number of classes; it fails for three (`C116_refuted`). -/
theorem C116_two_classes_partial (c d : K) (ys l : List K) (hcd : c ≠ d) (hy : ys ≠ []) (hl : l ≠ [])
    (hmem : ∀ y ∈ ys, y ∈ [c, d]) (hfreq : ∀ x, freq l x = freq ys x) :
    (∃ e, getGini [l.count c, l.count d] l.length none
      = .ok (.fin e, .fin (average (fun s => giniLinear ys (sampleWith ys l.length s) ^ 2)))) ∧
    (l.length ≤ ys.length → 2 ≤ ys.length → ∃ e, getGini [l.count c, l.count d] l.length (some ys.length)
      = .ok (.fin e, .fin (average (fun σ => giniLinear ys (sampleWithout ys l.length σ) ^ 2)))) := by
  have hn := List.length_pos_of_ne_nil hl
  have hc : [c, d].Nodup := by simpa using hcd
  have hw := variance_weights d hc hy hmem
  obtain ⟨h1, h2⟩ := average_linear (fun c => -2 * freq ys c) ys l.length hn hy
  have hred : ∀ F : K, (([c] ++ [d]).map (fun x => (-2 * freq l x + 2 * freq l d) ^ 2
      * (freq l x * (1 - freq l x) / (l.length : K) * F))).sum
      = variance (ys.map (fun c => -2 * freq ys c)) / (l.length : K) * F := by
    intro F
    simp only [hfreq]
    rw [hw]
    simp only [List.map_cons, List.map_nil, List.sum_cons, List.sum_nil, List.cons_append, List.nil_append]
    ring
  constructor
  · obtain ⟨e, he⟩ := getGini_var [c] d l none hl (by simp)
    refine ⟨e, ?_⟩
    have : (fun s => giniLinear ys (sampleWith ys l.length s) ^ 2) = fun s => (mean ((sampleWith ys l.length s).map
        (fun c => -2 * freq ys c)) - mean (ys.map (fun c => -2 * freq ys c))) ^ 2 := by
      funext s
      rw [giniLinear_eq (fun y hy => mem_sampleWith hy)]
    rw [this, h1, ← hred]
    exact he
  · intro hle h2N
    obtain ⟨e, he⟩ := getGini_var [c] d l (some ys.length) hl (by simp; omega)
    refine ⟨e, ?_⟩
    have : (fun σ => giniLinear ys (sampleWithout ys l.length σ) ^ 2) = fun σ => (mean ((sampleWithout ys l.length σ).map
        (fun c => -2 * freq ys c)) - mean (ys.map (fun c => -2 * freq ys c))) ^ 2 := by
      funext s
      rw [giniLinear_eq (fun y hy => mem_sampleWithout hy)]
    rw [this, h2 hle h2N, ← hred]
    exact he

/-- C116, any number of classes: the reported variance is not too small if the last class is the most frequent or the least
frequent one. -/
theorem C116_extreme_partial (cs : List K) (L : K) (ys l : List K) (hc : (cs ++ [L]).Nodup) (hy : ys ≠ []) (hl : l ≠ [])
    (hmem : ∀ y ∈ ys, y ∈ cs ++ [L]) (hfreq : ∀ x, freq l x = freq ys x)
    (hext : (∀ c ∈ cs, freq ys c ≤ freq ys L) ∨ (∀ c ∈ cs, freq ys L ≤ freq ys c)) :
    (∃ e v, getGini ((cs ++ [L]).map (fun c => l.count c)) l.length none = .ok (.fin e, .fin v) ∧
      average (fun s => giniLinear ys (sampleWith ys l.length s) ^ 2) ≤ v) ∧
    (l.length ≤ ys.length → 2 ≤ ys.length → ∃ e v,
      getGini ((cs ++ [L]).map (fun c => l.count c)) l.length (some ys.length) = .ok (.fin e, .fin v) ∧
      average (fun σ => giniLinear ys (sampleWithout ys l.length σ) ^ 2) ≤ v) := by
  have hn := List.length_pos_of_ne_nil hl
  have hn' : (0 : K) < (l.length : K) := by exact_mod_cast hn
  have hw := variance_weights L hc hy hmem
  obtain ⟨h1, h2⟩ := average_linear (fun c => -2 * freq ys c) ys l.length hn hy
  have hsq : ((cs ++ [L]).map (fun c => ((-2 * freq ys c + 2 * freq ys L) * freq ys c) ^ 2)).sum
      ≤ ((cs ++ [L]).map (fun c => (-2 * freq ys c + 2 * freq ys L) * freq ys c)).sum ^ 2 := by
    rcases hext with h | h
    · apply sum_sq_le_sq_sum_list
      intro c hcm
      apply mul_nonneg _ (freq_nonneg ys c)
      rcases List.mem_append.1 hcm with h' | h'
      · have := h c h'; linarith
      · rw [List.mem_singleton] at h'; subst h'; linarith
    · have := sum_sq_le_sq_sum_list (cs ++ [L]) (fun c => -((-2 * freq ys c + 2 * freq ys L) * freq ys c)) (by
        intro c hcm
        rw [← neg_mul]
        apply mul_nonneg _ (freq_nonneg ys c)
        rcases List.mem_append.1 hcm with h' | h'
        · have := h c h'; linarith
        · rw [List.mem_singleton] at h'; subst h'; linarith)
      have e1 : ((cs ++ [L]).map (fun c => (-((-2 * freq ys c + 2 * freq ys L) * freq ys c)) ^ 2)).sum
          = ((cs ++ [L]).map (fun c => ((-2 * freq ys c + 2 * freq ys L) * freq ys c) ^ 2)).sum := by
        congr 1
        apply List.map_congr_left
        intro c _
        ring
      have e2 : ((cs ++ [L]).map (fun c => -((-2 * freq ys c + 2 * freq ys L) * freq ys c))).sum
          = -((cs ++ [L]).map (fun c => (-2 * freq ys c + 2 * freq ys L) * freq ys c)).sum := by
        induction (cs ++ [L]) with
        | nil => simp
        | cons c cs ih => simp only [List.map_cons, List.sum_cons, ih]; ring
      rw [e1, e2, neg_sq] at this
      exact this
  have hred : ∀ F : K, 0 ≤ F → variance (ys.map (fun c => -2 * freq ys c)) / (l.length : K) * F
      ≤ ((cs ++ [L]).map (fun x => (-2 * freq l x + 2 * freq l L) ^ 2
        * (freq l x * (1 - freq l x) / (l.length : K) * F))).sum := by
    intro F hF
    simp only [hfreq]
    rw [hw, reported_sub (cs ++ [L]) (fun c => -2 * freq ys c + 2 * freq ys L) (freq ys)]
    apply mul_le_mul_of_nonneg_right _ hF
    apply div_le_div_of_nonneg_right _ hn'.le
    linarith
  constructor
  · obtain ⟨e, he⟩ := getGini_var cs L l none hl (by simp)
    refine ⟨e, _, he, ?_⟩
    have : (fun s => giniLinear ys (sampleWith ys l.length s) ^ 2) = fun s => (mean ((sampleWith ys l.length s).map
        (fun c => -2 * freq ys c)) - mean (ys.map (fun c => -2 * freq ys c))) ^ 2 := by
      funext s
      rw [giniLinear_eq (fun y hy => mem_sampleWith hy)]
    rw [this, h1]
    exact hred _ zero_le_one
  · intro hle h2N
    obtain ⟨e, he⟩ := getGini_var cs L l (some ys.length) hl (by simp; omega)
    refine ⟨e, _, he, ?_⟩
    have : (fun σ => giniLinear ys (sampleWithout ys l.length σ) ^ 2) = fun σ => (mean ((sampleWithout ys l.length σ).map
        (fun c => -2 * freq ys c)) - mean (ys.map (fun c => -2 * freq ys c))) ^ 2 := by
      funext s
      rw [giniLinear_eq (fun y hy => mem_sampleWithout hy)]
    rw [this, h2 hle h2N]
    exact hred _ (fpc_nonneg _ _ hle h2N)

theorem getEntropy_var (c d : K) (l : List K) (pop : Option Nat) (hcd : c ≠ d) (hl : l ≠ []) (hm : ∀ y ∈ l, y ∈ [c, d])
    (hp : ∀ s, pop = some s → s ≠ 1) (h0 : 0 < freq l c) (h1 : 0 < freq l d) :
    ∃ e, getEntropy (K := K) [l.count c, l.count d] l.length pop
      = .ok (.fin e, .fin ((NpFun.log (freq l d) - NpFun.log (freq l c)) ^ 2
          * (freq l c * (1 - freq l c) / (l.length : K) * fpc pop l.length))) := by
  have hn : l.length ≠ 0 := (List.length_pos_of_ne_nil hl).ne'
  obtain ⟨v, hv⟩ := clsCrit_entropy (K := K) 2 (le_refl _) [c, d] l pop (by simpa using hcd) rfl hm
  refine ⟨entropy NpFun.log l, hv.trans ?_⟩
  simp only [countsOf, List.map_cons, List.map_nil, clsImpurity] at hv
  unfold getEntropy at hv
  rw [probs_eq] at hv
  dsimp only at hv
  rw [varProbs_eq _ _ _ hn hp] at hv
  have hlog : ∀ p : K, 0 < p → (XF.log (.fin p)).nanToNum = .fin (NpFun.log p) := by
    intro p hp
    simp [XF.log, hp, hp.ne', not_lt.2 hp.le, XF.nanToNum]
  unfold freq at h0 h1
  simp only [List.map_cons, List.map_nil, logProbs, hlog _ h0, hlog _ h1, entropyVar, XF.neg_fin, XF.add_fin, XF.mul_fin] at hv
  have hs := XF.sum_fin (K := K) [(-NpFun.log ((l.count c : K) / (l.length : K)) + NpFun.log ((l.count c : K) / (l.length : K)))
      * (-NpFun.log ((l.count c : K) / (l.length : K)) + NpFun.log ((l.count c : K) / (l.length : K)))
      * ((l.count c : K) / (l.length : K) * (1 - (l.count c : K) / (l.length : K)) / (l.length : K) * fpc pop l.length),
    (-NpFun.log ((l.count c : K) / (l.length : K)) + NpFun.log ((l.count d : K) / (l.length : K)))
      * (-NpFun.log ((l.count c : K) / (l.length : K)) + NpFun.log ((l.count d : K) / (l.length : K)))
      * ((l.count c : K) / (l.length : K) * (1 - (l.count c : K) / (l.length : K)) / (l.length : K) * fpc pop l.length)]
  simp only [List.map_cons, List.map_nil] at hs
  rw [hs] at hv
  simp only [Except.ok.injEq, Prod.mk.injEq] at hv ⊢
  refine ⟨trivial, ?_⟩
  rw [← hv.2]
  congr 1
  simp only [List.sum_cons, List.sum_nil, freq]
  ring

/-- C116, entropy, two classes that both occur: the variance that `get_entropy` reports for a sample that shows the frequencies of the
labels is the average square of the linear part of the error of the entropy. -/
theorem C116_entropy_partial (c d : K) (ys l : List K) (hcd : c ≠ d) (hc : c ∈ ys) (hd : d ∈ ys) (hl : l ≠ [])
    (hmem : ∀ y ∈ ys, y ∈ [c, d]) (hlm : ∀ y ∈ l, y ∈ [c, d]) (hfreq : ∀ x, freq l x = freq ys x) :
    (∃ e, getEntropy [l.count c, l.count d] l.length none
      = .ok (.fin e, .fin (average (fun s => entropyLinear NpFun.log ys (sampleWith ys l.length s) ^ 2)))) ∧
    (l.length ≤ ys.length → ∃ e, getEntropy [l.count c, l.count d] l.length (some ys.length)
      = .ok (.fin e, .fin (average (fun σ => entropyLinear NpFun.log ys (sampleWithout ys l.length σ) ^ 2)))) := by
  have hy : ys ≠ [] := List.ne_nil_of_mem hc
  have hn := List.length_pos_of_ne_nil hl
  have hnd : [c, d].Nodup := by simpa using hcd
  have hpos : ∀ x ∈ ys, 0 < freq ys x := by
    intro x hx
    have h1 := List.count_pos_iff.2 hx
    have h2 := List.length_pos_of_ne_nil hy
    unfold freq
    positivity
  have hN2 : 2 ≤ ys.length := by
    have h1 := List.count_pos_iff.2 hc
    have h2 := List.count_pos_iff.2 hd
    have h3 := sum_countsOf hnd hmem
    simp only [countsOf, List.map_cons, List.map_nil, List.sum_cons, List.sum_nil] at h3
    omega
  have hsum := sum_freq hnd hmem hy
  simp only [List.map_cons, List.map_nil, List.sum_cons, List.sum_nil, add_zero] at hsum
  have hw : variance (ys.map (fun c => -NpFun.log (freq ys c)))
      = (NpFun.log (freq ys d) - NpFun.log (freq ys c)) ^ 2 * (freq ys c * (1 - freq ys c)) := by
    rw [variance_eq_sub hy, ← sum_weight_freq (fun c => (-NpFun.log (freq ys c)) ^ 2) hnd hmem,
      ← sum_weight_freq (fun c => -NpFun.log (freq ys c)) hnd hmem]
    simp only [List.map_cons, List.map_nil, List.sum_cons, List.sum_nil, add_zero]
    have hq : freq ys d = 1 - freq ys c := by linarith
    generalize NpFun.log (freq ys d) = A
    generalize NpFun.log (freq ys c) = B
    rw [hq]
    ring
  obtain ⟨h1, h2⟩ := average_linear (fun c => -NpFun.log (freq ys c)) ys l.length hn hy
  have hred : ∀ F : K, (NpFun.log (freq l d) - NpFun.log (freq l c)) ^ 2
      * (freq l c * (1 - freq l c) / (l.length : K) * F)
      = variance (ys.map (fun c => -NpFun.log (freq ys c))) / (l.length : K) * F := by
    intro F
    simp only [hfreq]
    rw [hw]
    ring
  constructor
  · obtain ⟨e, he⟩ := getEntropy_var c d l none hcd hl hlm (by simp) (by rw [hfreq]; exact hpos c hc) (by rw [hfreq]; exact hpos d hd)
    refine ⟨e, ?_⟩
    have : (fun s => entropyLinear NpFun.log ys (sampleWith ys l.length s) ^ 2) = fun s => (mean ((sampleWith ys l.length s).map
        (fun c => -NpFun.log (freq ys c))) - mean (ys.map (fun c => -NpFun.log (freq ys c)))) ^ 2 := by
      funext s
      rw [entropyLinear_eq (fun y hy => mem_sampleWith hy)]
    rw [this, h1, ← hred]
    exact he
  · intro hle
    obtain ⟨e, he⟩ := getEntropy_var c d l (some ys.length) hcd hl hlm (by simp; omega) (by rw [hfreq]; exact hpos c hc)
      (by rw [hfreq]; exact hpos d hd)
    refine ⟨e, ?_⟩
    have : (fun σ => entropyLinear NpFun.log ys (sampleWithout ys l.length σ) ^ 2) = fun σ => (mean ((sampleWithout ys l.length σ).map
        (fun c => -NpFun.log (freq ys c))) - mean (ys.map (fun c => -NpFun.log (freq ys c)))) ^ 2 := by
      funext s
      rw [entropyLinear_eq (fun y hy => mem_sampleWithout hy)]
    rw [this, h2 hle hN2, ← hred]
    exact he

/-- C116 fails for three classes. For the labels `0, 0, 0, 1, 2, 2` and a sample of six with these frequencies, the average squared
linear error is `10/972`. `get_gini` reports `7/972` if the classes are numbered 0, 1, 2 and `22/972` if they are numbered
0, 2, 1. -/
theorem C116_refuted :
    let ys : List ℚ := [0, 0, 0, 1, 2, 2]
    average (fun s => giniLinear ys (sampleWith ys 6 s) ^ 2) = 10 / 972 ∧
    (getGini ([0, 1, 2].map (fun c => ys.count c)) 6 none : Except Err (XF ℚ × XF ℚ)).toOption
      = some (.fin (11 / 18), .fin (7 / 972)) ∧
    (getGini ([0, 2, 1].map (fun c => ys.count c)) 6 none : Except Err (XF ℚ × XF ℚ)).toOption
      = some (.fin (11 / 18), .fin (22 / 972)) := by
  intro ys
  refine ⟨?_, by decide +kernel, by decide +kernel⟩
  have : (fun s => giniLinear ys (sampleWith ys 6 s) ^ 2) = fun s => (mean ((sampleWith ys 6 s).map
      (fun c => -2 * freq ys c)) - mean (ys.map (fun c => -2 * freq ys c))) ^ 2 := by
    funext s
    rw [giniLinear_eq (fun y hy => mem_sampleWith hy)]
  rw [this, (average_linear (fun c => -2 * freq ys c) ys 6 (by norm_num) (by simp [ys])).1]
  decide +kernel

/-- Two classes, a sample of 3 out of 6 that shows the right frequencies. -/
example : (∀ x ∈ ([0, 1] : List ℚ), freq ([0, 1, 0] : List ℚ) x = freq ([0, 1, 0, 0, 1, 0] : List ℚ) x) ∧
    (getGini [2, 1] 3 none : Except Err (XF ℚ × XF ℚ)).toOption = some (.fin (4 / 9), .fin (8 / 243)) ∧
    (getGini [2, 1] 3 (some 6) : Except Err (XF ℚ × XF ℚ)).toOption = some (.fin (4 / 9), .fin (8 / 405)) ∧
    (getEntropy [2, 1] 3 none : Except Err (XF ℚ × XF ℚ)).toOption.map Prod.snd = some (.fin (2 / 243)) := by
  decide +kernel

end FF
