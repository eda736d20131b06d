import Verif.Spec.Chance
import Verif.Proofs.GiniError
import Verif.Proofs.OneBatch

/-!
# Chances: monotone, subadditive, and bounded by averages
-/

set_option linter.unusedSectionVars false

namespace FF

open Spec

section Basic

variable {K : Type} [Field K] [LinearOrder K] [IsStrictOrderedRing K] {Ω : Type} [Fintype Ω]

open Classical in
theorem chance_eq_average (P : Ω → Prop) : chance K P = average (fun ω => if P ω then (1 : K) else 0) := by
  unfold chance average
  congr 1
  rw [Finset.sum_boole]

theorem average_mono (X Y : Ω → K) (h : ∀ ω, X ω ≤ Y ω) : average X ≤ average Y :=
  div_le_div_of_nonneg_right (Finset.sum_le_sum (fun ω _ => h ω)) (Nat.cast_nonneg _)

theorem chance_mono {P Q : Ω → Prop} (h : ∀ ω, P ω → Q ω) : chance K P ≤ chance K Q := by
  classical
  rw [chance_eq_average, chance_eq_average]
  refine average_mono _ _ (fun ω => ?_)
  by_cases hp : P ω
  · rw [if_pos hp, if_pos (h ω hp)]
  · rw [if_neg hp]
    split_ifs
    · exact zero_le_one
    · exact le_refl _

theorem chance_nonneg (P : Ω → Prop) : 0 ≤ chance K P := by unfold chance; positivity

theorem chance_false {P : Ω → Prop} (h : ∀ ω, ¬P ω) : chance K P = 0 := by
  classical
  rw [chance_eq_average]
  simp [h, average]

theorem chance_or (P Q : Ω → Prop) : chance K (fun ω => P ω ∨ Q ω) ≤ chance K P + chance K Q := by
  classical
  rw [chance_eq_average, chance_eq_average, chance_eq_average, ← average_add]
  refine average_mono _ _ (fun ω => ?_)
  by_cases hp : P ω <;> by_cases hq : Q ω <;> simp [hp, hq]

theorem chance_union {ι : Type} (l : List ι) (P : ι → Ω → Prop) (b : K) (h : ∀ x ∈ l, chance K (P x) ≤ b) :
    chance K (fun ω => ∃ x ∈ l, P x ω) ≤ (l.length : K) * b := by
  induction l with
  | nil => rw [chance_false (by simp)]; simp
  | cons x l ih =>
    have h1 : chance K (fun ω => ∃ y ∈ x :: l, P y ω) ≤ chance K (fun ω => P x ω ∨ ∃ y ∈ l, P y ω) :=
      chance_mono (fun ω ⟨y, hy, hp⟩ => by
        rcases List.mem_cons.1 hy with rfl | hy
        · exact Or.inl hp
        · exact Or.inr ⟨y, hy, hp⟩)
    have h2 := chance_or (K := K) (P x) (fun ω => ∃ y ∈ l, P y ω)
    have h3 := ih (fun y hy => h y (List.mem_cons_of_mem _ hy))
    have h4 := h x List.mem_cons_self
    rw [List.length_cons, Nat.cast_add, Nat.cast_one, add_mul, one_mul]
    linarith

theorem chance_not [Nonempty Ω] (P : Ω → Prop) : chance K (fun ω => ¬P ω) = 1 - chance K P := by
  classical
  have h1 : average (fun _ : Ω => (1 : K)) = 1 := average_const 1
  rw [chance_eq_average, chance_eq_average]
  refine Eq.trans ?_ (congrArg (fun x => x - average (fun ω => if P ω then (1 : K) else 0)) h1)
  rw [← average_sub]
  congr 1
  funext ω
  by_cases hp : P ω <;> simp [hp]

/-- Markov's inequality. -/
theorem chance_le_average (P : Ω → Prop) (X : Ω → K) (h0 : ∀ ω, 0 ≤ X ω) (h : ∀ ω, P ω → 1 ≤ X ω) : chance K P ≤ average X := by
  classical
  rw [chance_eq_average]
  refine average_mono _ _ (fun ω => ?_)
  split_ifs with hp
  · exact h ω hp
  · exact h0 ω

/-! ### The shares of a sample -/

variable {n N : Nat} {θ : K} {pos : Ω → Fin n → Fin N}

/-- The average squared distance of the frequency of `a` in a sample from that in the population. -/
theorem Fair.freq_error [Nonempty Ω] (hf : Fair θ pos) (hθ : 0 ≤ θ) (hN1 : 0 < (N : K) - θ) (hn : 0 < n) (a : Fin N → K)
    (ha : ∀ u, a u = 0 ∨ a u = 1) :
    average (fun ω => ((∑ i, a (pos ω i)) / (n : K) - (∑ u, a u) / (N : K)) ^ 2) ≤ (∑ u, a u) / (N : K) / (n : K) := by
  have hN : 0 < (N : K) := by linarith
  have hnK : 0 < (n : K) := by exact_mod_cast hn
  set p := (∑ u, a u) / (N : K) with hp
  have hpN : ∑ u, a u = p * (N : K) := by rw [hp]; field_simp
  have h0 : ∑ u, (a u - p) = 0 := by
    rw [Finset.sum_sub_distrib, hpN, Finset.sum_const, Finset.card_univ, Fintype.card_fin, nsmul_eq_mul]
    ring
  have hsq : ∑ u, (a u - p) ^ 2 = (p - p ^ 2) * (N : K) := by
    have : ∀ u, (a u - p) ^ 2 = a u - 2 * p * a u + p ^ 2 := by
      intro u
      have : a u ^ 2 = a u := by rcases ha u with h | h <;> rw [h] <;> norm_num
      linear_combination this
    simp only [this]
    rw [Finset.sum_add_distrib, Finset.sum_sub_distrib, ← Finset.mul_sum, hpN, Finset.sum_const, Finset.card_univ, Fintype.card_fin,
      nsmul_eq_mul]
    ring
  have hm := (hf.moments2 hN.ne' hN1.ne' (fun u => a u - p) h0).sq_sum
  have he : (fun ω => ((∑ i, a (pos ω i)) / (n : K) - p) ^ 2) = fun ω => (1 / (n : K) ^ 2) * (∑ i, (a (pos ω i) - p)) ^ 2 := by
    funext ω
    rw [Finset.sum_sub_distrib, Finset.sum_const, Finset.card_univ, Fintype.card_fin, nsmul_eq_mul]
    field_simp
  rw [he, average_mul, hm, hsq]
  have hmul : (p - p ^ 2) * (N : K) / (N : K) = p - p ^ 2 := by field_simp
  rw [hmul]
  have hv : 0 ≤ p - p ^ 2 := by
    have h1 : 0 ≤ ∑ u, (a u - p) ^ 2 := Finset.sum_nonneg (fun u _ => sq_nonneg _)
    rw [hsq] at h1
    exact nonneg_of_mul_nonneg_left h1 hN
  have hcross : (n : K) * ((n : K) - 1) * (-θ * (p - p ^ 2) / ((N : K) - θ)) ≤ 0 := by
    have hn1 : (1 : K) ≤ (n : K) := by exact_mod_cast hn
    refine mul_nonpos_of_nonneg_of_nonpos (mul_nonneg hnK.le (by linarith)) ?_
    rw [div_nonpos_iff]
    exact Or.inr ⟨by nlinarith, hN1.le⟩
  have h2 : p / (n : K) = 1 / (n : K) ^ 2 * ((n : K) * p) := by field_simp
  rw [h2]
  refine mul_le_mul_of_nonneg_left ?_ (by positivity)
  nlinarith [sq_nonneg p, mul_nonneg hnK.le (sq_nonneg p)]

theorem cellShare_ofFn {n : Nat} (z : Fin n → K × K) (t : K) (left : Bool) (c : K) :
    cellShare (List.ofFn z) t left c
      = (∑ i, if ((if left then decide ((z i).1 ≤ t) else decide (t < (z i).1)) && decide ((z i).2 = c)) = true then (1 : K) else 0)
        / (n : K) := by
  unfold cellShare
  rw [List.length_ofFn]
  congr 1
  have key : ∀ l : List (K × K), (((if left then labelsLe l t else labelsGt l t).count c : Nat) : K)
      = (l.map (fun z => if ((if left then decide (z.1 ≤ t) else decide (t < z.1)) && decide (z.2 = c)) = true then (1 : K) else 0)).sum := by
    intro l
    induction l with
    | nil => cases left <;> simp [labelsLe, labelsGt]
    | cons x l ih =>
      rw [List.map_cons, List.sum_cons, ← ih]
      cases left
      · unfold labelsGt
        by_cases hx : t < x.1 <;> by_cases hc : x.2 = c <;> simp [hx, hc, add_comm]
      · unfold labelsLe
        by_cases hx : x.1 ≤ t <;> by_cases hc : x.2 = c <;> simp [hx, hc, add_comm]
  rw [key, List.map_ofFn, List.sum_ofFn]
  rfl

/-- The chance that the change of the Gini index of a sample of `n` is off by more than `ε`. -/
theorem Fair.gini_error [Nonempty Ω] (hf : Fair θ pos) (hθ : 0 ≤ θ) (hN1 : 0 < (N : K) - θ) (hn : 0 < n) (C : Finset K)
    (z : Fin N → K × K) (hz : ∀ u, (z u).2 ∈ C) (t ε : K) (hε : 0 < ε) :
    chance K (fun ω => ε < |change gini (List.ofFn (fun i => z (pos ω i))) t - change gini (List.ofFn z) t|)
      ≤ 32 * (C.card : K) / ((n : K) * ε ^ 2) := by
  have hN : 0 < (N : K) := by linarith
  have hN' : N ≠ 0 := by rintro rfl; simp at hN
  have hnK : 0 < (n : K) := by exact_mod_cast hn
  have hX : ∀ ω, List.ofFn (fun i => z (pos ω i)) ≠ [] := fun ω => by rw [ne_eq, List.ofFn_eq_nil_iff]; omega
  have hY : List.ofFn z ≠ [] := by rw [ne_eq, List.ofFn_eq_nil_iff]; exact hN'
  have hXC : ∀ ω, ∀ y ∈ List.ofFn (fun i => z (pos ω i)), y.2 ∈ C := by
    intro ω y hy
    obtain ⟨i, rfl⟩ := List.mem_ofFn.1 hy
    exact hz _
  have hYC : ∀ y ∈ List.ofFn z, y.2 ∈ C := by
    intro y hy
    obtain ⟨i, rfl⟩ := List.mem_ofFn.1 hy
    exact hz _
  set D : Ω → Bool → K → K := fun ω s c => cellShare (List.ofFn (fun i => z (pos ω i))) t s c - cellShare (List.ofFn z) t s c with hD
  have hcell : ∀ s c, average (fun ω => D ω s c ^ 2) ≤ cellShare (List.ofFn z) t s c / (n : K) := by
    intro s c
    have := hf.freq_error hθ hN1 hn
      (fun u => if ((if s then decide ((z u).1 ≤ t) else decide (t < (z u).1)) && decide ((z u).2 = c)) = true then (1 : K) else 0)
      (fun u => by split_ifs <;> simp)
    simp only [hD, cellShare_ofFn]
    exact this
  have hsum : average (fun ω => ∑ c ∈ C, (D ω true c ^ 2 + D ω false c ^ 2)) ≤ 1 / (n : K) := by
    rw [average_sum]
    have h1 : ∑ c ∈ C, average (fun ω => D ω true c ^ 2 + D ω false c ^ 2)
        ≤ ∑ c ∈ C, (cellShare (List.ofFn z) t true c + cellShare (List.ofFn z) t false c) / (n : K) := by
      refine Finset.sum_le_sum (fun c _ => ?_)
      rw [average_add, add_div]
      exact add_le_add (hcell true c) (hcell false c)
    rw [← Finset.sum_div, sum_shares C _ t hY hYC] at h1
    exact h1
  have hT : ∀ ω, (∑ c ∈ C, (|D ω true c| + |D ω false c|)) ^ 2
      ≤ 2 * (C.card : K) * ∑ c ∈ C, (D ω true c ^ 2 + D ω false c ^ 2) := by
    intro ω
    refine sq_sum_le_card_mul_sum_sq.trans ?_
    rw [mul_comm (2 : K), mul_assoc]
    have hk : (0 : K) ≤ (C.card : K) := Nat.cast_nonneg _
    refine mul_le_mul_of_nonneg_left ?_ hk
    rw [Finset.mul_sum]
    refine Finset.sum_le_sum (fun c _ => ?_)
    nlinarith [sq_nonneg (|D ω true c| - |D ω false c|), sq_abs (D ω true c), sq_abs (D ω false c)]
  have hM := chance_le_average (K := K)
    (fun ω => ε < |change gini (List.ofFn (fun i => z (pos ω i))) t - change gini (List.ofFn z) t|)
    (fun ω => 32 * (C.card : K) / ε ^ 2 * ∑ c ∈ C, (D ω true c ^ 2 + D ω false c ^ 2))
    (fun ω => mul_nonneg (by positivity) (Finset.sum_nonneg (fun c _ => by positivity)))
    (fun ω hω => by
      have h1 : |change gini (List.ofFn (fun i => z (pos ω i))) t - change gini (List.ofFn z) t|
          ≤ 4 * ∑ c ∈ C, (|D ω true c| + |D ω false c|) := change_gini_close C _ _ t (hX ω) hY (hXC ω) hYC
      have h2 : ε ^ 2 ≤ 16 * (∑ c ∈ C, (|D ω true c| + |D ω false c|)) ^ 2 := by
        have := pow_le_pow_left₀ hε.le ((le_of_lt hω).trans h1) 2
        rw [mul_pow] at this
        norm_num at this
        exact this
      have h3 := hT ω
      rw [div_mul_eq_mul_div, le_div_iff₀ (by positivity), one_mul]
      nlinarith)
  rw [average_mul] at hM
  refine hM.trans ((mul_le_mul_of_nonneg_left hsum (by positivity)).trans_eq ?_)
  field_simp

end Basic

/-- A sample in which all labels are the same: no threshold lowers its Gini index. -/
theorem change_gini_same {K : Type} [Field K] [LinearOrder K] [IsStrictOrderedRing K] (X : List (K × K)) (t c : K)
    (hX : X ≠ []) (h : ∀ z ∈ X, z.2 = c) : change gini X t = 0 := by
  have hC : ∀ z ∈ X, z.2 ∈ ({c} : Finset K) := fun z hz => by rw [Finset.mem_singleton]; exact h z hz
  have h1 := sum_shares {c} X t hX hC
  rw [change_gini_shares {c} X t hX hC]
  simp only [Finset.sum_singleton] at h1 ⊢
  rw [h1, pow_two (cellShare X t true c), pow_two (cellShare X t false c), mul_self_div_self, mul_self_div_self]
  linarith

section Splits

variable {K : Type} [Field K] [LinearOrder K] [IsStrictOrderedRing K] [FloorRing K] [NpFun K] {G : Type} {Ω : Type} [Fintype Ω]

/-- The (feature, bin) pairs of the candidate thresholds. -/
def candPairs (hists : List (Hist K)) (F B : Nat) : List (Nat × Nat) :=
  (List.range F).flatMap (fun f => (List.range (min B (edgesOf hists f).length)).map (fun b => (f, b)))

theorem candPairs_length (hists : List (Hist K)) (F B : Nat) : (candPairs hists F B).length = numCands hists F B := by
  unfold candPairs numCands
  rw [List.length_flatMap]
  simp

theorem mem_candPairs {hists : List (Hist K)} {B f b : Nat} {v : K} (h : IsCand hists B f b v) :
    (f, b) ∈ candPairs hists hists.length B ∧ (edgesOf hists f).getD b 0 = v := by
  obtain ⟨h1, h2⟩ := h
  obtain ⟨hlt, he⟩ := List.getElem?_eq_some_iff.1 h1
  have hf : f < hists.length := by
    by_contra hf
    have : edgesOf hists f = [] := by
      unfold edgesOf
      rw [List.getElem?_eq_none (by omega)]
    rw [this] at hlt
    simp at hlt
  refine ⟨List.mem_flatMap.2 ⟨f, List.mem_range.2 hf, List.mem_map.2 ⟨b, List.mem_range.2 (by omega), rfl⟩⟩, ?_⟩
  rw [List.getD_eq_getElem?_getD, h1, Option.getD_some]

/-- A best split of rows on which every candidate changes the impurity by almost as much as on the whole node is almost best. -/
theorem BestOn.near {m : Criterion} {data : List (List K)} {labels : List K} {hists : List (Hist K)} {B : Nat} {S : List Nat}
    {r : Option (SplitRes K)} {ε : K} (h : BestOn m data labels hists B S r) (h0 : 0 ≤ ε)
    (hclose : ∀ f b v, IsCand hists B f b v →
      |changeOn m data labels S f v - change (critImp m) (nodeSamples data labels f) v| ≤ ε) :
    NearBest m data labels hists B (2 * ε) r := by
  cases r with
  | none =>
    intro f b v hc
    have h1 := (abs_le.1 (hclose f b v hc)).2
    have h2 := h f b v hc
    linarith
  | some r =>
    obtain ⟨⟨b0, hb0⟩, _, _, hbest⟩ := h
    refine ⟨⟨b0, hb0⟩, fun f b v hc => ?_⟩
    have h1 := (abs_le.1 (hclose f b v hc)).2
    have h2 := (abs_le.1 (hclose _ _ _ hb0)).1
    have h3 := hbest f b v hc
    linarith

/-- The chance that a best split of the first batch is not almost best for the node. -/
theorem chance_far [Nonempty Ω] {n N : Nat} {θ : K} {pos : Ω → Fin n → Fin N} (hf : Fair θ pos) (hθ : 0 ≤ θ)
    (hN1 : 0 < (N : K) - θ) (hn : 0 < n) {data : List (List K)} {labels : List K} {hists : List (Hist K)} {B : Nat}
    (hN : data.length = N) (hlen : labels.length = N) (S : Ω → List Nat) (hS : ∀ ω, S ω = List.ofFn (fun i => (pos ω i).val))
    (r : Ω → Option (SplitRes K)) (hbest : ∀ ω, BestOn .gini data labels hists B (S ω) (r ω)) {ε : K} (hε : 0 < ε) :
    chance K (fun ω => ¬NearBest .gini data labels hists B (2 * ε) (r ω))
      ≤ 32 * (labels.dedup.length : K) * (numCands hists hists.length B : K) / ((n : K) * ε ^ 2) := by
  subst hN
  have hcard : labels.toFinset.card = labels.dedup.length := List.card_toFinset labels
  have hlab : ∀ (f : Nat) (u : Fin data.length), (rowSample data labels f u.val).2 ∈ labels.toFinset := by
    intro f u
    rw [List.mem_toFinset]
    unfold rowSample
    dsimp only
    rw [List.getD_eq_getElem _ _ (by rw [hlen]; exact u.2)]
    exact List.getElem_mem _
  have hpop : ∀ f, List.ofFn (fun u : Fin data.length => rowSample data labels f u.val) = nodeSamples data labels f := by
    intro f
    rw [← nodeSamples_eq (by omega)]
    apply List.ext_getElem <;> simp
  have hsam : ∀ ω f, (S ω).map (rowSample data labels f) = List.ofFn (fun i => rowSample data labels f (pos ω i).val) := by
    intro ω f
    rw [hS, List.map_ofFn]
    rfl
  have hone : ∀ p ∈ candPairs hists hists.length B,
      chance K (fun ω => ε < |changeOn .gini data labels (S ω) p.1 ((edgesOf hists p.1).getD p.2 0)
          - change gini (nodeSamples data labels p.1) ((edgesOf hists p.1).getD p.2 0)|)
        ≤ 32 * (labels.dedup.length : K) / ((n : K) * ε ^ 2) := by
    intro p _
    have := hf.gini_error hθ hN1 hn labels.toFinset (fun u => rowSample data labels p.1 u.val) (hlab p.1)
      ((edgesOf hists p.1).getD p.2 0) ε hε
    rw [hcard, hpop] at this
    unfold changeOn
    simp only [hsam]
    exact this
  have hunion := chance_union (K := K) _ _ _ hone
  rw [candPairs_length] at hunion
  refine (chance_mono (fun ω hfar => ?_)).trans (hunion.trans_eq (by ring))
  by_contra hno
  push Not at hno
  refine hfar ((hbest ω).near hε.le (fun f b v hc => ?_))
  obtain ⟨hmem, hv⟩ := mem_candPairs hc
  have := hno (f, b) hmem
  simp only [hv] at this
  exact this

/-- The chance that a sample of `n` contains one of the rows in which `b` holds. -/
theorem Fair.hit [Nonempty Ω] {n N : Nat} {θ : K} {pos : Ω → Fin n → Fin N} (hf : Fair θ pos) (hN : (N : K) ≠ 0) (b : Fin N → Prop)
    [DecidablePred b] :
    chance K (fun ω => ∃ i, b (pos ω i)) ≤ (n : K) * ((Finset.univ.filter b).card : K) / (N : K) := by
  classical
  have h1 : ∀ i ∈ List.finRange n, chance K (fun ω => b (pos ω i)) ≤ ((Finset.univ.filter b).card : K) / (N : K) := by
    intro i _
    rw [chance_eq_average]
    have := hf.mean_one hN (fun u => if b u then (1 : K) else 0) i
    rw [Finset.sum_boole] at this
    refine le_of_eq (Eq.trans ?_ this)
    congr 1
    funext ω
    split_ifs <;> rfl
  have h2 := chance_union (K := K) (List.finRange n) (fun i ω => b (pos ω i)) _ h1
  rw [List.length_finRange, ← mul_div_assoc] at h2
  exact (chance_mono (fun ω ⟨i, hi⟩ => ⟨i, List.mem_finRange i, hi⟩)).trans h2

/-- If all labels of the batch are the same, a best split of the batch is none. -/
theorem BestOn.blind {data : List (List K)} {labels : List K} {hists : List (Hist K)} {B : Nat} {S : List Nat}
    {r : Option (SplitRes K)} (h : BestOn .gini data labels hists B S r) (hne : S ≠ []) (y : K) (hy : ∀ i ∈ S, labels.getD i 0 = y) :
    r = none := by
  cases r with
  | none => rfl
  | some r =>
    exfalso
    have hlt := h.2.2.1
    unfold changeOn at hlt
    have hz : change (critImp .gini) (S.map (rowSample data labels r.feat)) r.value = 0 :=
      change_gini_same _ _ y (by simpa using hne) (fun z hz => by
        obtain ⟨i, hi, rfl⟩ := List.mem_map.1 hz
        exact hy i hi)
    rw [hz] at hlt
    exact lt_irrefl _ hlt

/-- The chance that a best split of the first batch is none, if few rows have a label other than `y`. -/
theorem chance_blind [Nonempty Ω] {n N : Nat} {θ : K} {pos : Ω → Fin n → Fin N} (hf : Fair θ pos) (hn : 0 < n) (hN0 : 0 < N)
    {data : List (List K)} {labels : List K} {hists : List (Hist K)} {B : Nat}
    (hlen : labels.length = N) (S : Ω → List Nat) (hS : ∀ ω, S ω = List.ofFn (fun i => (pos ω i).val))
    (r : Ω → Option (SplitRes K)) (hbest : ∀ ω, BestOn .gini data labels hists B (S ω) (r ω)) (y : K) :
    1 - (n : K) * ((labels.length - labels.count y : Nat) : K) / (N : K) ≤ chance K (fun ω => r ω = none) := by
  have hcount : (Finset.univ.filter (fun u : Fin N => labels.getD u.val 0 ≠ y)).card = labels.length - labels.count y := by
    subst hlen
    have h1 : labels.countP (fun x => !(x == y)) = labels.length - labels.count y := by
      have := List.length_eq_countP_add_countP (fun x => x == y) (l := labels)
      unfold List.count
      simp only [Bool.not_eq_true, Bool.decide_eq_false] at this
      omega
    rw [← h1]
    have h2 : labels = List.ofFn (fun u : Fin labels.length => labels.getD u.val 0) := by
      apply List.ext_getElem <;> simp
    rw [show labels.countP (fun x => !(x == y)) = (List.ofFn (fun u : Fin labels.length => labels.getD u.val 0)).countP
      (fun x => !(x == y)) from congrArg (List.countP (fun x => !(x == y))) h2, List.ofFn_eq_map, List.countP_map, Fin.univ_def, Finset.card, Finset.filter_val]
    dsimp only
    rw [Multiset.filter_coe, Multiset.coe_card, ← List.countP_eq_length_filter]
    congr 1
    funext u
    simp only [Function.comp_apply]
    generalize labels.getD u.val 0 = a
    by_cases h : a = y <;> simp [h]
  have hhit := hf.hit (K := K) (by exact_mod_cast hN0.ne') (fun u : Fin N => labels.getD u.val 0 ≠ y)
  rw [hcount] at hhit
  have hmono : chance K (fun ω => ¬∃ i, labels.getD (pos ω i).val 0 ≠ y) ≤ chance K (fun ω => r ω = none) := by
    refine chance_mono (fun ω hω => ?_)
    push Not at hω
    refine (hbest ω).blind ?_ y ?_
    · rw [hS, ne_eq, List.ofFn_eq_nil_iff]; omega
    · rw [hS]
      intro i hi
      obtain ⟨j, rfl⟩ := List.mem_ofFn.1 hi
      exact hω j
  rw [chance_not] at hmono
  linarith

end Splits

end FF
