import Verif.Proofs.SamplingMse

/-!
# Frequencies in random samples
-/

set_option linter.unusedSectionVars false

namespace FF

open Spec

variable {K : Type} [Field K] [LinearOrder K] [IsStrictOrderedRing K] [FloorRing K] [NpFun K]

theorem sum_weight_count {classes l : List K} (w : K → K) (hn : classes.Nodup) (h : ∀ y ∈ l, y ∈ classes) :
    (classes.map (fun c => w c * (l.count c : K))).sum = (l.map w).sum := by
  induction l with
  | nil => simp
  | cons y l ih =>
    rw [List.map_cons, List.sum_cons, ← ih (fun z hz => h z (List.mem_cons_of_mem _ hz))]
    have hy := h y List.mem_cons_self
    clear ih h
    have key : ∀ (cs : List K), cs.Nodup → (cs.map (fun c => w c * ((y :: l).count c : K))).sum
        = (cs.map (fun c => w c * (l.count c : K))).sum + if y ∈ cs then w y else 0 := by
      intro cs hcs
      induction cs with
      | nil => simp
      | cons c cs ihc =>
        rw [List.nodup_cons] at hcs
        rw [List.map_cons, List.sum_cons, ihc hcs.2, List.map_cons, List.sum_cons, List.count_cons]
        by_cases hyc : y = c
        · subst hyc
          rw [if_neg hcs.1, if_pos List.mem_cons_self, if_pos (by simp)]
          push_cast
          ring
        · rw [if_neg (by simpa using hyc)]
          simp only [List.mem_cons, hyc, false_or]
          push_cast
          ring
    rw [key classes hn, if_pos hy]
    ring

theorem sum_weight_freq {classes l : List K} (w : K → K) (hn : classes.Nodup) (h : ∀ y ∈ l, y ∈ classes) :
    (classes.map (fun c => w c * freq l c)).sum = mean (l.map w) := by
  unfold freq mean
  rw [List.length_map, ← sum_weight_count w hn h, ← sum_map_div]
  congr 1
  apply List.map_congr_left
  intro c _
  ring

theorem freq_eq_mean (l : List K) (c : K) : freq l c = mean (l.map (fun y => if y = c then 1 else 0)) := by
  unfold freq mean
  rw [List.length_map]
  congr 1
  induction l with
  | nil => simp
  | cons y l ih =>
    rw [List.count_cons, List.map_cons, List.sum_cons, ← ih]
    by_cases h : y = c <;> simp [h, add_comm]

theorem sum_weight_sub {classes l ys : List K} (w : K → K) (hn : classes.Nodup) (hl : ∀ y ∈ l, y ∈ classes)
    (hy : ∀ y ∈ ys, y ∈ classes) :
    (classes.map (fun c => w c * (freq l c - freq ys c))).sum = mean (l.map w) - mean (ys.map w) := by
  rw [← sum_weight_freq w hn hl, ← sum_weight_freq w hn hy]
  clear hn hl hy
  induction classes with
  | nil => simp
  | cons c cs ih => simp only [List.map_cons, List.sum_cons, ih]; ring

theorem variance_eq_sub {ys : List K} (hy : ys ≠ []) (w : K → K) :
    variance (ys.map w) = mean (ys.map (fun y => w y ^ 2)) - mean (ys.map w) ^ 2 := by
  have h := len_mul_variance (ys.map w)
  have h0 := length_ne_zero' hy
  rw [List.length_map, List.map_map] at h
  have e : ((fun y => y ^ 2) ∘ w) = fun y => w y ^ 2 := rfl
  rw [e] at h
  have e2 : (ys.map (fun y => w y ^ 2)).sum = (ys.length : K) * mean (ys.map (fun y => w y ^ 2)) := by
    unfold mean
    rw [List.length_map]
    field_simp
  rw [e2] at h
  apply mul_left_cancel₀ h0
  rw [h]
  ring

theorem mean_add_const {ys : List K} (hy : ys ≠ []) (w : K → K) (k : K) : mean (ys.map (fun y => w y + k)) = mean (ys.map w) + k := by
  have h0 := length_ne_zero' hy
  unfold mean
  rw [List.length_map, List.length_map]
  have : (ys.map (fun y => w y + k)).sum = (ys.map w).sum + (ys.length : K) * k := by
    clear hy h0
    induction ys with
    | nil => simp
    | cons y ys ih => simp only [List.map_cons, List.sum_cons, List.length_cons, ih]; push_cast; ring
  rw [this]
  field_simp

theorem variance_add_const {ys : List K} (hy : ys ≠ []) (w : K → K) (k : K) :
    variance (ys.map (fun y => w y + k)) = variance (ys.map w) := by
  unfold variance
  rw [mean_add_const hy, List.map_map, List.map_map]
  congr 1
  apply List.map_congr_left
  intro y _
  simp only [Function.comp_apply]
  ring

section

variable {Ω : Type} [Fintype Ω] [Nonempty Ω] {n : Nat} {θ : K} {ys : List K} {pos : Ω → Fin n → Fin ys.length}

/-- Mean and variance of the sample mean of any quantity. -/
theorem average_mean (hf : Fair θ pos) (hy : ys ≠ []) (hn : (n : K) ≠ 0) (hN1 : (ys.length : K) - θ ≠ 0) (w : K → K) :
    average (fun ω => mean ((List.ofFn (fun i => ys.get (pos ω i))).map w)) = mean (ys.map w) ∧
    average (fun ω => (mean ((List.ofFn (fun i => ys.get (pos ω i))).map w) - mean (ys.map w)) ^ 2)
      = variance (ys.map w) / (n : K) * (((ys.length : K) - θ * n) / ((ys.length : K) - θ)) := by
  have hN := length_ne_zero' hy
  have e1 : ∀ ω, mean ((List.ofFn (fun i => ys.get (pos ω i))).map w) = (n : K)⁻¹ * ∑ i, w (ys.get (pos ω i)) := by
    intro ω
    unfold mean
    rw [List.length_map, List.length_ofFn, List.map_ofFn, List.sum_ofFn]
    simp only [Function.comp_apply]
    rw [div_eq_inv_mul]
  have hmean : mean (ys.map w) = (∑ u : Fin ys.length, w (ys.get u)) / (ys.length : K) := by
    unfold mean
    rw [List.length_map, sum_map_eq_get]
  constructor
  · simp only [e1]
    rw [average_mul, average_sum, Finset.sum_congr rfl (fun i _ => hf.mean_one hN (fun u => w (ys.get u)) i), Finset.sum_const,
      Finset.card_univ, Fintype.card_fin, nsmul_eq_mul, ← hmean]
    field_simp
  · have h0 : ∑ u : Fin ys.length, (w (ys.get u) - mean (ys.map w)) = 0 := by
      rw [Finset.sum_sub_distrib, Finset.sum_const, Finset.card_univ, Fintype.card_fin, nsmul_eq_mul, hmean]
      field_simp
      ring
    have hv : ∑ u : Fin ys.length, (w (ys.get u) - mean (ys.map w)) ^ 2 = (ys.length : K) * variance (ys.map w) := by
      rw [← sum_map_eq_get ys (fun y => (w y - mean (ys.map w)) ^ 2)]
      unfold variance
      rw [mean.eq_1 (List.map _ (ys.map w)), List.length_map, List.length_map, List.map_map]
      have e : ((fun y => (y - mean (ys.map w)) ^ 2) ∘ w) = fun y => (w y - mean (ys.map w)) ^ 2 := rfl
      rw [e]
      field_simp
    have hm := hf.moments2 hN hN1 (fun u => w (ys.get u) - mean (ys.map w)) h0
    rw [hv] at hm
    have e2 : (fun ω => (mean ((List.ofFn (fun i => ys.get (pos ω i))).map w) - mean (ys.map w)) ^ 2)
        = fun ω => ((n : K)⁻¹) ^ 2 * (∑ i, (w (ys.get (pos ω i)) - mean (ys.map w))) ^ 2 := by
      funext ω
      rw [e1, Finset.sum_sub_distrib, Finset.sum_const, Finset.card_univ, Fintype.card_fin, nsmul_eq_mul]
      field_simp
    rw [e2, average_mul, hm.sq_sum]
    field_simp
    ring

theorem variance_indicator (hy : ys ≠ []) (c : K) :
    variance (ys.map (fun y => if y = c then (1 : K) else 0)) = freq ys c * (1 - freq ys c) := by
  rw [variance_eq_sub hy, ← freq_eq_mean]
  have e : (fun y : K => (if y = c then (1 : K) else 0) ^ 2) = fun y => if y = c then 1 else 0 := by
    funext y
    split_ifs <;> simp
  rw [e, ← freq_eq_mean]
  ring

theorem average_freq (hf : Fair θ pos) (hy : ys ≠ []) (hn : (n : K) ≠ 0) (hN1 : (ys.length : K) - θ ≠ 0) (c : K) :
    average (fun ω => freq (List.ofFn (fun i => ys.get (pos ω i))) c) = freq ys c ∧
    average (fun ω => (freq (List.ofFn (fun i => ys.get (pos ω i))) c - freq ys c) ^ 2)
      = freq ys c * (1 - freq ys c) / (n : K) * (((ys.length : K) - θ * n) / ((ys.length : K) - θ)) := by
  have h := average_mean hf hy hn hN1 (fun y => if y = c then (1 : K) else 0)
  simp only [← freq_eq_mean, variance_indicator hy] at h
  exact h

/-- The average Gini index of a sample. -/
theorem average_gini (hf : Fair θ pos) (hy : ys ≠ []) (hn : (n : K) ≠ 0) (hN1 : (ys.length : K) - θ ≠ 0) :
    average (fun ω => gini (List.ofFn (fun i => ys.get (pos ω i))))
      = gini ys - gini ys / (n : K) * (((ys.length : K) - θ * n) / ((ys.length : K) - θ)) := by
  have hd := List.nodup_dedup ys
  have hmem : ∀ ω, ∀ y ∈ List.ofFn (fun i => ys.get (pos ω i)), y ∈ ys.dedup := by
    intro ω y hyy
    rw [List.mem_ofFn'] at hyy
    obtain ⟨i, rfl⟩ := hyy
    exact List.mem_dedup.2 (List.get_mem _ _)
  have e : (fun ω => gini (List.ofFn (fun i => ys.get (pos ω i))))
      = fun ω => 1 - ∑ c ∈ ys.dedup.toFinset, freq (List.ofFn (fun i => ys.get (pos ω i))) c ^ 2 := by
    funext ω
    rw [gini_eq hd (hmem ω), ← List.sum_toFinset _ hd]
  have hg : gini ys = 1 - ∑ c ∈ ys.dedup.toFinset, freq ys c ^ 2 := by
    unfold gini
    rw [← List.sum_toFinset _ hd]
  have hs : ∑ c ∈ ys.dedup.toFinset, freq ys c = 1 := by
    have h := sum_freq hd (fun y h => List.mem_dedup.2 h) hy
    rwa [← List.sum_toFinset _ hd] at h
  have hc : ∀ c, average (fun ω => freq (List.ofFn (fun i => ys.get (pos ω i))) c ^ 2)
      = freq ys c ^ 2 + (freq ys c - freq ys c ^ 2) * (1 / (n : K) * (((ys.length : K) - θ * n) / ((ys.length : K) - θ))) := by
    intro c
    obtain ⟨h1, h2⟩ := average_freq hf hy hn hN1 c
    rw [average_dev _ _ h1] at h2
    linear_combination h2
  rw [e, average_sub, average_const, average_sum, Finset.sum_congr rfl (fun c _ => hc c), Finset.sum_add_distrib, ← Finset.sum_mul,
    Finset.sum_sub_distrib, hs, hg]
  ring

end

/-! ### The variance reported by `get_gini` and `get_entropy` -/

/-- The finite population correction. -/
def fpc (pop : Option Nat) (n : Nat) : K :=
  match pop with
  | none => 1
  | some s => ((s : K) - (n : K)) / ((s : K) - 1)

theorem varProbs_eq (counts : List Nat) (n : Nat) (pop : Option Nat) (hn : n ≠ 0) (hp : ∀ s, pop = some s → s ≠ 1) :
    varProbs (counts.map (fun (c : Nat) => XF.fin ((c : K) / (n : K)))) n pop
      = counts.map (fun (c : Nat) => XF.fin ((c : K) / (n : K) * (1 - (c : K) / (n : K)) / (n : K) * fpc pop n)) := by
  have hn' : (n : K) ≠ 0 := by exact_mod_cast hn
  unfold varProbs
  rw [List.map_map]
  apply List.map_congr_left
  intro c _
  simp only [Function.comp_apply, xnat, XF.sub_fin, XF.mul_fin]
  rw [XF.div_fin _ _ hn']
  cases pop with
  | none => simp [fpc]
  | some s =>
    have hs : (s : K) - 1 ≠ 0 := by
      intro h
      have : (s : K) = ((1 : Nat) : K) := by rw [Nat.cast_one]; linarith
      exact hp s rfl (by exact_mod_cast this)
    simp only [XF.div_fin _ _ hs, XF.mul_fin, fpc]

/-- The two values returned by `get_gini` with frequencies `p` of the classes, `L` being the last class. -/
theorem getGini_var (cs : List K) (L : K) (l : List K) (pop : Option Nat) (hl : l ≠ []) (hp : ∀ s, pop = some s → s ≠ 1) :
    ∃ e, getGini (K := K) ((cs ++ [L]).map (fun c => l.count c)) l.length pop
      = .ok (.fin e, .fin (((cs ++ [L]).map (fun c => (-2 * freq l c + 2 * freq l L) ^ 2
          * (freq l c * (1 - freq l c) / (l.length : K) * fpc pop l.length))).sum)) := by
  have hn : l.length ≠ 0 := (List.length_pos_of_ne_nil hl).ne'
  obtain ⟨v, hv⟩ := getGini_ok (K := K) ((cs ++ [L]).map (fun c => l.count c)) l.length pop (by simp)
  refine ⟨giniK ((cs ++ [L]).map (fun c => l.count c)) l.length, ?_⟩
  rw [hv]
  unfold getGini at hv
  rw [probs_eq] at hv
  dsimp only at hv
  rw [varProbs_eq _ _ _ hn hp] at hv
  simp only [List.map_append, List.map_cons, List.map_nil, List.getLast?_concat, List.dropLast_concat] at hv
  simp only [Except.ok.injEq, Prod.mk.injEq] at hv ⊢
  refine ⟨trivial, ?_⟩
  rw [← hv.2]
  rw [List.map_append, List.sum_append]
  simp only [List.map_cons, List.map_nil, List.sum_cons, List.sum_nil]
  have e : (cs.map (fun c => XF.fin ((-2 * freq l c + 2 * freq l L) ^ 2
      * (freq l c * (1 - freq l c) / (l.length : K) * fpc pop l.length))) : List (XF K))
      = (cs.map (fun c => (-2 * freq l c + 2 * freq l L) ^ 2
      * (freq l c * (1 - freq l c) / (l.length : K) * fpc pop l.length))).map XF.fin := by
    rw [List.map_map]; rfl
  have e0 : -2 * freq l L + 2 * freq l L = 0 := by ring
  rw [e0, zero_pow two_ne_zero, zero_mul, add_zero, add_zero, ← XF.sum_fin, ← e]
  congr 1
  simp only [List.map_map, List.zip_map', List.map_map]
  apply List.map_congr_left
  intro c _
  simp only [Function.comp_apply, XF.mul_fin, XF.add_fin, freq]
  congr 1
  ring

end FF
