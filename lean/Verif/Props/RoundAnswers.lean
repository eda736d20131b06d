import Verif.Model.RoundAnswers
import Verif.Model.Forest
import Verif.Spec.RoundAnswers
import Verif.Proofs.Counts
import Verif.Props.RoundMse

/-!
# C147: answers in floating-point arithmetic
-/

namespace FF

open Spec

set_option linter.unusedSectionVars false

variable {K : Type} [Field K] [LinearOrder K] [IsStrictOrderedRing K] [FloorRing K] [NpFun K]

section
variable {p : Nat} {rnd : K → K} {sum : List K → K}

theorem Nearest.one (h : Nearest p rnd) (hp : 1 ≤ p) : rnd 1 = 1 := by
  refine h.exact ⟨1, 0, ?_, by simp⟩
  rw [abs_one]
  exact one_lt_pow₀ (by norm_num) (by omega)

/-- A frequency and its rounding. -/
theorem freqR_range (h : Nearest p rnd) (hp : 1 ≤ p) {c n : Nat} (hc : c ≤ n) (hn : 0 < n) :
    0 ≤ rnd ((c : K) / (n : K)) ∧ rnd ((c : K) / (n : K)) ≤ 1 ∧ |rnd ((c : K) / (n : K)) - (c : K) / (n : K)| ≤ 1 / 2 ^ p * ((c : K) / (n : K)) := by
  have hn' : (0 : K) < (n : K) := by exact_mod_cast hn
  have h0 : 0 ≤ (c : K) / (n : K) := by positivity
  have h1 : (c : K) / (n : K) ≤ 1 := by
    rw [div_le_one hn']
    exact_mod_cast hc
  refine ⟨?_, ?_, ?_⟩
  · have := h.mono h0
    rwa [h.zero] at this
  · have := h.mono h1
    rwa [h.one hp] at this
  · have := h.rel hp ((c : K) / (n : K))
    rwa [abs_of_nonneg h0] at this

/-- Different frequencies of the same number of rows stay different. -/
theorem freqR_lt (h : Nearest p rnd) (hp : 1 ≤ p) {c c' n : Nat} (hc : c < c') (hc' : c' ≤ n) (hn : 2 * n ≤ 2 ^ p) :
    rnd ((c : K) / (n : K)) < rnd ((c' : K) / (n : K)) := by
  have hn0 : 0 < n := by omega
  have hn' : (0 : K) < (n : K) := by exact_mod_cast hn0
  obtain ⟨_, _, e1⟩ := freqR_range h hp (c := c) (n := n) (by omega) hn0
  obtain ⟨_, _, e2⟩ := freqR_range h hp (c := c') (n := n) hc' hn0
  have a1 := (abs_le.1 e1).2
  have a2 := (abs_le.1 e2).1
  have hgap : (c : K) / (n : K) + 1 / 2 ^ p * ((c : K) / (n : K)) < (c' : K) / (n : K) - 1 / 2 ^ p * ((c' : K) / (n : K)) := by
    have e : (c' : K) / (n : K) - 1 / 2 ^ p * ((c' : K) / (n : K)) - ((c : K) / (n : K) + 1 / 2 ^ p * ((c : K) / (n : K))) =
        (((c' : K) - c) * 2 ^ p - ((c' : K) + c)) / ((n : K) * 2 ^ p) := by
      field_simp
      ring
    have hpos : 0 < ((c' : K) - c) * 2 ^ p - ((c' : K) + c) := by
      have h1 : (1 : K) ≤ (c' : K) - c := by
        have : ((c + 1 : Nat) : K) ≤ (c' : K) := by exact_mod_cast hc
        push_cast at this
        linarith
      have h2 : ((c' : K) + c) < 2 ^ p := by
        have : ((c' + c : Nat) : K) < ((2 ^ p : Nat) : K) := by
          rw [Nat.cast_lt]
          omega
        push_cast at this
        exact this
      have h3 : (0 : K) < 2 ^ p := by positivity
      nlinarith
    have : 0 < (((c' : K) - c) * 2 ^ p - ((c' : K) + c)) / ((n : K) * 2 ^ p) := by positivity
    linarith
  linarith

theorem nat_mem_le_sum {l : List Nat} {c : Nat} (h : c ∈ l) : c ≤ l.sum := List.single_le_sum (fun _ _ => Nat.zero_le _) c h

theorem sum_probs {counts : List Nat} (h0 : 0 < counts.sum) : (counts.map (fun c : Nat => (c : K) / ((counts.sum : Nat) : K))).sum = 1 := by
  have hn' : ((counts.sum : Nat) : K) ≠ 0 := by exact_mod_cast h0.ne'
  have key : ∀ (l : List Nat) (n : K), (l.map (fun c : Nat => (c : K) / n)).sum = ((l.sum : Nat) : K) / n := by
    intro l n
    induction l with
    | nil => simp
    | cons a l ih =>
      rw [List.map_cons, List.sum_cons, ih, List.sum_cons]
      push_cast
      ring
  rw [key, div_self hn']

/-- The sum of the probabilities of a leaf, as the assertion in `predict` computes it. -/
theorem leafProbsR_sum (h : Nearest p rnd) (hp : 1 ≤ p) (hs : SumFn rnd sum) {counts : List Nat} (h0 : 0 < counts.sum) :
    |sum (leafProbsR rnd counts) - 1| ≤ (1 + 1 / 2 ^ p) ^ counts.length - 1 := by
  have hu : (0 : K) < 1 / 2 ^ p := by positivity
  have hlen : 1 ≤ counts.length := by
    cases counts with
    | nil => simp at h0
    | cons a l => simp
  have hne : leafProbsR rnd counts ≠ [] := by
    intro q
    have := congrArg List.length q
    unfold leafProbsR at this
    rw [List.length_map] at this
    simp at this
    rw [this] at hlen
    simp at hlen
  have hnn : ∀ x ∈ leafProbsR rnd counts, 0 ≤ x := by
    intro x hx
    obtain ⟨c, hc, rfl⟩ := List.mem_map.1 hx
    exact (freqR_range h hp (nat_mem_le_sum hc) h0).1
  have e1 := (hs _ hne).error h hp hnn
  have hl : (leafProbsR rnd counts).length = counts.length := List.length_map _
  rw [hl] at e1
  have e2 : |(leafProbsR rnd counts).sum - 1| ≤ 1 / 2 ^ p := by
    have key : ∀ l : List Nat, (∀ c ∈ l, c ∈ counts) →
        |(l.map (fun c : Nat => rnd ((c : K) / ((counts.sum : Nat) : K)))).sum - (l.map (fun c : Nat => (c : K) / ((counts.sum : Nat) : K))).sum| ≤
          1 / 2 ^ p * (l.map (fun c : Nat => (c : K) / ((counts.sum : Nat) : K))).sum := by
      intro l hl
      induction l with
      | nil => simp
      | cons a l ih =>
        have i1 := ih (fun c hc => hl c (List.mem_cons_of_mem _ hc))
        have i2 := (freqR_range (K := K) h hp (nat_mem_le_sum (hl a List.mem_cons_self)) h0).2.2
        simp only [List.map_cons, List.sum_cons]
        rw [add_sub_add_comm, mul_add]
        exact (abs_add_le _ _).trans (add_le_add i2 i1)
    have := key counts (fun _ hc => hc)
    rw [sum_probs h0, mul_one] at this
    exact this
  obtain ⟨S, hS⟩ : ∃ S, S = (leafProbsR rnd counts).sum := ⟨_, rfl⟩
  rw [← hS] at e1 e2
  have hS1 : S ≤ 1 + 1 / 2 ^ p := by linarith [(abs_le.1 e2).2]
  have hP1 : (1 : K) ≤ (1 + 1 / 2 ^ p) ^ (counts.length - 1) := one_le_pow₀ (by linarith)
  have hpow : (1 + 1 / 2 ^ p : K) ^ counts.length = (1 + 1 / 2 ^ p) ^ (counts.length - 1) * (1 + 1 / 2 ^ p) := by
    rw [← pow_succ]
    congr 1
    omega
  rw [hpow]
  have h3 : |sum (leafProbsR rnd counts) - 1| ≤ |sum (leafProbsR rnd counts) - S| + |S - 1| := abs_sub_le _ _ _
  have h4 : ((1 + 1 / 2 ^ p : K) ^ (counts.length - 1) - 1) * S ≤ ((1 + 1 / 2 ^ p : K) ^ (counts.length - 1) - 1) * (1 + 1 / 2 ^ p) :=
    mul_le_mul_of_nonneg_left hS1 (by linarith)
  nlinarith

/-- C147, leaves of classification trees. For leaves with fewer than `2^(p-1)` rows: the assertion in `predict` holds, the probabilities lie
between 0 and 1 and are the rounded frequencies, and the label is the first of the most frequent classes. -/
theorem C147_leaf (h : Nearest p rnd) (hp : 1 ≤ p) (hs : SumFn rnd sum) {counts : List Nat} (h0 : 0 < counts.sum)
    (hn : 2 * counts.sum ≤ 2 ^ p) (hk : 200000 * (counts.length + 8) ≤ 2 ^ p) :
    ∃ i c probs, leafR rnd sum counts = .ok (i, probs) ∧ counts[i]? = some c ∧
      (∀ (j c' : Nat), counts[j]? = some c' → c' ≤ c ∧ (j < i → c' < c)) ∧ probs.length = counts.length ∧
      ∀ (j c' : Nat), counts[j]? = some c' → ∃ q, probs[j]? = some q ∧ 0 ≤ q ∧ q ≤ 1 ∧
        |q - (c' : K) / ((counts.sum : Nat) : K)| ≤ 1 / 2 ^ p * ((c' : K) / ((counts.sum : Nat) : K)) := by
  have hne : leafProbsR rnd counts ≠ [] := by
    unfold leafProbsR
    intro q
    rw [List.map_eq_nil_iff] at q
    rw [q] at h0
    simp at h0
  obtain ⟨i, hi⟩ := npArgmax_total hne
  obtain ⟨m, e1, e2⟩ := npArgmax_spec hi
  have hget : ∀ (j c' : Nat), counts[j]? = some c' → (leafProbsR rnd counts)[j]? = some (rnd ((c' : K) / ((counts.sum : Nat) : K))) := by
    intro j c' hj
    unfold leafProbsR
    rw [List.getElem?_map, hj]
    rfl
  obtain ⟨c, hc, hcm⟩ : ∃ c, counts[i]? = some c ∧ rnd ((c : K) / ((counts.sum : Nat) : K)) = m := by
    unfold leafProbsR at e1
    rw [List.getElem?_map] at e1
    obtain ⟨c, hc, q⟩ := Option.map_eq_some_iff.1 e1
    exact ⟨c, hc, q⟩
  have hle : ∀ (j c' : Nat), counts[j]? = some c' → c' ≤ counts.sum := fun j c' hj => nat_mem_le_sum (List.mem_of_getElem? hj)
  have hsum : |sum (leafProbsR rnd counts) - 1| ≤ 1 / 10 ^ 8 + 1 / 10 ^ 5 := by
    have hu : (0 : K) < 1 / 2 ^ p := by positivity
    refine (leafProbsR_sum h hp hs h0).trans ?_
    have hg := giniErr_le (K := K) p counts.length (by omega)
    unfold giniErr at hg
    have hmono : (1 + 1 / 2 ^ p : K) ^ counts.length ≤ (1 + 1 / 2 ^ p) ^ (counts.length + 8) :=
      pow_le_pow_right₀ (by linarith) (by omega)
    have hk' : 200000 * ((counts.length : K) + 8) ≤ 2 ^ p := by exact_mod_cast hk
    have hb : 4 * ((counts.length : K) + 8) / 2 ^ p ≤ 2 / 10 ^ 5 := by
      rw [div_le_div_iff₀ (by positivity) (by norm_num)]
      linarith
    have : (0 : K) < 1 / 10 ^ 8 := by positivity
    have e : (2 : K) / 10 ^ 5 = 2 * (1 / 10 ^ 5) := by ring
    linarith
  refine ⟨i, c, leafProbsR rnd counts, ?_, hc, ?_, List.length_map _, ?_⟩
  · unfold leafR
    rw [hi]
    dsimp only
    rw [if_pos hsum]
  · intro j c' hj
    obtain ⟨a1, a2⟩ := e2 j _ (hget j c' hj)
    rw [← hcm] at a1 a2
    constructor
    · by_contra hlt
      exact absurd (freqR_lt h hp (not_le.1 hlt) (hle j c' hj) hn) (not_lt.2 a1)
    · intro hji
      by_contra hge
      exact absurd (h.mono (div_le_div_of_nonneg_right (Nat.cast_le.2 (not_lt.1 hge)) (Nat.cast_nonneg _))) (not_le.2 (a2 hji))
  · intro j c' hj
    obtain ⟨b1, b2, b3⟩ := freqR_range (K := K) h hp (hle j c' hj) h0
    exact ⟨_, hget j c' hj, b1, b2, b3⟩

/-- Means of lists that are close entry by entry. -/
theorem mean_close {α : Type} {l : List α} (hl : l ≠ []) {f g : α → K} {e : K} (h : ∀ x ∈ l, |f x - g x| ≤ e) :
    |mean (l.map f) - mean (l.map g)| ≤ e := by
  have hn : (0 : K) < (l.length : K) := by
    have := List.length_pos_iff.2 hl
    exact_mod_cast this
  have key : ∀ l : List α, (∀ x ∈ l, |f x - g x| ≤ e) → |(l.map f).sum - (l.map g).sum| ≤ (l.length : K) * e := by
    intro l
    induction l with
    | nil => simp
    | cons a l ih =>
      intro h
      have i1 := ih (fun x hx => h x (List.mem_cons_of_mem _ hx))
      have i2 := h a List.mem_cons_self
      simp only [List.map_cons, List.sum_cons, List.length_cons]
      rw [add_sub_add_comm]
      push_cast
      have := abs_add_le (f a - g a) ((l.map f).sum - (l.map g).sum)
      linarith
  unfold mean
  rw [List.length_map, List.length_map, ← sub_div, abs_div, abs_of_pos hn, div_le_iff₀ hn]
  have := key l h
  linarith

theorem getD_le_sum (l : List Nat) (j : Nat) : l.getD j 0 ≤ l.sum := by
  by_cases hj : j < l.length
  · rw [List.getD_eq_getElem _ _ hj]
    exact nat_mem_le_sum (List.getElem_mem hj)
  · rw [List.getD_eq_default _ _ (by omega)]
    exact Nat.zero_le _

theorem avg_error (h : Nearest p rnd) (hp : 1 ≤ p) (hs : SumFn rnd sum) {counts : List (List Nat)} (hne : counts ≠ [])
    (h0 : ∀ c ∈ counts, 0 < c.sum) (j : Nat) :
    |meanR rnd sum ((counts.map (leafProbsR rnd)).map (fun p => p.getD j 0)) - trueAvg counts j| ≤ avgErr p counts.length := by
  have hu : (0 : K) < 1 / 2 ^ p := by positivity
  have hget : ∀ c : List Nat, (leafProbsR rnd c).getD j 0 = rnd (((c.getD j 0 : Nat) : K) / ((c.sum : Nat) : K)) := by
    intro c
    unfold leafProbsR
    by_cases hj : j < c.length
    · rw [List.getD_eq_getElem _ _ (by rw [List.length_map]; exact hj), List.getElem_map, List.getD_eq_getElem _ _ hj]
    · rw [List.getD_eq_default _ _ (by rw [List.length_map]; omega), List.getD_eq_default _ _ (by omega)]
      rw [Nat.cast_zero, zero_div, h.zero]
  have hlist : (counts.map (leafProbsR rnd)).map (fun p => p.getD j 0) =
      counts.map (fun c => rnd (((c.getD j 0 : Nat) : K) / ((c.sum : Nat) : K))) := by
    rw [List.map_map]
    exact List.map_congr_left (fun c _ => hget c)
  rw [hlist]
  have hr : ∀ c ∈ counts, 0 ≤ rnd (((c.getD j 0 : Nat) : K) / ((c.sum : Nat) : K)) ∧ rnd (((c.getD j 0 : Nat) : K) / ((c.sum : Nat) : K)) ≤ 1 ∧
      |rnd (((c.getD j 0 : Nat) : K) / ((c.sum : Nat) : K)) - ((c.getD j 0 : Nat) : K) / ((c.sum : Nat) : K)| ≤ 1 / 2 ^ p := by
    intro c hc
    obtain ⟨b1, b2, b3⟩ := freqR_range (K := K) h hp (getD_le_sum c j) (h0 c hc)
    refine ⟨b1, b2, b3.trans ?_⟩
    have hs0 : (0 : K) < ((c.sum : Nat) : K) := by exact_mod_cast h0 c hc
    have hle : ((c.getD j 0 : Nat) : K) / ((c.sum : Nat) : K) ≤ 1 := by
      rw [div_le_one hs0]
      exact_mod_cast getD_le_sum c j
    calc 1 / 2 ^ p * (((c.getD j 0 : Nat) : K) / ((c.sum : Nat) : K)) ≤ 1 / 2 ^ p * 1 := mul_le_mul_of_nonneg_left hle hu.le
      _ = 1 / 2 ^ p := mul_one _
  have e1 := (meanR_error h hp hs (ys := counts.map (fun c => rnd (((c.getD j 0 : Nat) : K) / ((c.sum : Nat) : K)))) (M := 1) (by simpa using hne)
    (by
      intro y hy
      obtain ⟨c, hc, rfl⟩ := List.mem_map.1 hy
      obtain ⟨b1, b2, _⟩ := hr c hc
      rw [abs_of_nonneg b1]
      exact b2)).2
  rw [List.length_map, mul_one] at e1
  have e2 := mean_close hne (f := fun c => rnd (((c.getD j 0 : Nat) : K) / ((c.sum : Nat) : K)))
    (g := fun c => ((c.getD j 0 : Nat) : K) / ((c.sum : Nat) : K)) (e := 1 / 2 ^ p) (fun c hc => (hr c hc).2.2)
  refine (abs_sub_le _ _ _).trans ((add_le_add e1 e2).trans ?_)
  unfold avgErr
  have hP1 : (1 : K) ≤ (1 + 1 / 2 ^ p) ^ counts.length := one_le_pow₀ (by linarith)
  rw [pow_succ]
  nlinarith

/-- C147, classification forests: every averaged probability is within `avgErr p T` of the true average, and the class that is answered is the
best one up to twice that. In particular it is the right one if the lead of the best class is larger. -/
theorem C147_forest_partial (h : Nearest p rnd) (hp : 1 ≤ p) (hs : SumFn rnd sum) {counts : List (List Nat)} (hne : counts ≠ [])
    (h0 : ∀ c ∈ counts, 0 < c.sum) {nc : Nat} (hnc : 0 < nc) :
    ∃ i avg, forestR rnd sum nc (counts.map (leafProbsR rnd)) = some (i, avg) ∧ i < nc ∧ avg.length = nc ∧
      (∀ j < nc, ∃ q, avg[j]? = some q ∧ |q - trueAvg counts j| ≤ avgErr p counts.length) ∧
      (∀ j < nc, (trueAvg counts j : K) - 2 * avgErr p counts.length ≤ trueAvg counts i) ∧
      ∀ b < nc, (∀ j < nc, j ≠ b → (trueAvg counts j : K) + 2 * avgErr p counts.length < trueAvg counts b) → i = b := by
  obtain ⟨avg, havg⟩ : ∃ avg, avg = (List.range nc).map (fun j => meanR rnd sum ((counts.map (leafProbsR rnd)).map (fun p => p.getD j 0))) := ⟨_, rfl⟩
  have hlen : avg.length = nc := by rw [havg, List.length_map, List.length_range]
  have hne' : avg ≠ [] := by
    intro q
    rw [q] at hlen
    simp at hlen
    omega
  obtain ⟨i, hi⟩ := npArgmax_total hne'
  obtain ⟨m, e1, e2⟩ := npArgmax_spec hi
  have hget : ∀ j < nc, avg[j]? = some (meanR rnd sum ((counts.map (leafProbsR rnd)).map (fun p => p.getD j 0))) := by
    intro j hj
    rw [havg, List.getElem?_map, List.getElem?_range hj]
    rfl
  have hinc : i < nc := by
    have := (List.getElem?_eq_some_iff.1 e1).1
    omega
  have hm : meanR rnd sum ((counts.map (leafProbsR rnd)).map (fun p => p.getD i 0)) = m := by
    rw [hget i hinc] at e1
    exact Option.some.inj e1
  have herr := avg_error h hp hs hne h0
  have hbest : ∀ j < nc, (trueAvg counts j : K) - 2 * avgErr p counts.length ≤ trueAvg counts i := by
    intro j hj
    have a := (e2 j _ (hget j hj)).1
    rw [← hm] at a
    have b1 := (abs_le.1 (herr j)).1
    have b2 := (abs_le.1 (herr i)).2
    linarith
  refine ⟨i, avg, ?_, hinc, hlen, fun j hj => ⟨_, hget j hj, herr j⟩, hbest, ?_⟩
  · unfold forestR
    rw [← havg]
    dsimp only
    rw [hi]
    rfl
  · intro b hb hlead
    by_contra hib
    have := hlead i hinc hib
    have := hbest b hb
    linarith

/-- `avgErr` is tiny. -/
theorem avgErr_le (p T : Nat) (hk : 2 * (T + 9) ≤ 2 ^ p) : (avgErr p T : K) ≤ 2 * ((T : K) + 9) / 2 ^ p := by
  have hu : (0 : K) < 1 / 2 ^ p := by positivity
  have hg := giniErr_le (K := K) p (T + 1) (by omega)
  unfold giniErr at hg
  have hmono : (1 + 1 / 2 ^ p : K) ^ (T + 1) ≤ (1 + 1 / 2 ^ p) ^ (T + 1 + 8) := pow_le_pow_right₀ (by linarith) (by omega)
  unfold avgErr
  have e : 4 * (((T + 1 : Nat) : K) + 8) / 2 ^ p = 2 * (2 * ((T : K) + 9) / 2 ^ p) := by
    push_cast
    ring
  rw [e] at hg
  linarith

/-- C147, regression: the answer of a forest of `T` trees without boosting whose leaves have at most `N` rows is, for targets between `lo` and
`hi` of size at most `M`, within `((1 + 2^-p)^(T + N) - 1) M` of the true average of the leaf means, and of the range of the targets. With
`T = 1` and no average, the same holds for a tree. -/
theorem C147_value_partial (h : Nearest p rnd) (hp : 1 ≤ p) (hs : SumFn rnd sum) {leaves : List (List K)} (hne : leaves ≠ []) {N : Nat}
    {M lo hi : K} (hl : ∀ ys ∈ leaves, ys ≠ [] ∧ ys.length ≤ N ∧ ∀ y ∈ ys, |y| ≤ M ∧ lo ≤ y ∧ y ≤ hi) :
    (∀ ys ∈ leaves, |meanR rnd sum ys - mean ys| ≤ ((1 + 1 / 2 ^ p) ^ N - 1) * M) ∧
    |meanR rnd sum (leaves.map (meanR rnd sum)) - mean (leaves.map mean)| ≤ ((1 + 1 / 2 ^ p) ^ (leaves.length + N) - 1) * M ∧
    lo - ((1 + 1 / 2 ^ p) ^ (leaves.length + N) - 1) * M ≤ meanR rnd sum (leaves.map (meanR rnd sum)) ∧
    meanR rnd sum (leaves.map (meanR rnd sum)) ≤ hi + ((1 + 1 / 2 ^ p) ^ (leaves.length + N) - 1) * M := by
  have hu : (0 : K) < 1 / 2 ^ p := by positivity
  have hM : 0 ≤ M := by
    obtain ⟨ys, hys⟩ := List.exists_mem_of_ne_nil _ hne
    obtain ⟨h1, _, h2⟩ := hl ys hys
    obtain ⟨y, hy⟩ := List.exists_mem_of_ne_nil _ h1
    exact (abs_nonneg y).trans (h2 y hy).1
  have hleaf : ∀ ys ∈ leaves, |mean ys| ≤ M ∧ |meanR rnd sum ys - mean ys| ≤ ((1 + 1 / 2 ^ p) ^ N - 1) * M := by
    intro ys hys
    obtain ⟨h1, h2, h3⟩ := hl ys hys
    obtain ⟨a, b⟩ := meanR_error h hp hs h1 (fun y hy => (h3 y hy).1)
    refine ⟨a, b.trans (mul_le_mul_of_nonneg_right ?_ hM)⟩
    have : (1 + 1 / 2 ^ p : K) ^ ys.length ≤ (1 + 1 / 2 ^ p) ^ N := pow_le_pow_right₀ (by linarith) h2
    linarith
  have hmean : ∀ ys ∈ leaves, lo ≤ mean ys ∧ mean ys ≤ hi := by
    intro ys hys
    obtain ⟨h1, _, h3⟩ := hl ys hys
    have hn : (0 : K) < (ys.length : K) := by
      have := List.length_pos_iff.2 h1
      exact_mod_cast this
    unfold mean
    constructor
    · rw [le_div_iff₀ hn]
      have := List.card_nsmul_le_sum ys lo (fun y hy => (h3 y hy).2.1)
      rw [nsmul_eq_mul] at this
      linarith
    · rw [div_le_iff₀ hn]
      have := List.sum_le_card_nsmul ys hi (fun y hy => (h3 y hy).2.2)
      rw [nsmul_eq_mul] at this
      linarith
  have e1 := (meanR_error h hp hs (ys := leaves.map (meanR rnd sum)) (M := (1 + 1 / 2 ^ p) ^ N * M) (by simpa using hne) (by
    intro y hy
    obtain ⟨ys, hys, rfl⟩ := List.mem_map.1 hy
    obtain ⟨a, b⟩ := hleaf ys hys
    have := abs_sub_abs_le_abs_sub (meanR rnd sum ys) (mean ys)
    linarith)).2
  have e2 := mean_close hne (f := meanR rnd sum) (g := mean) (fun ys hys => (hleaf ys hys).2)
  rw [List.length_map] at e1
  have e3 : |meanR rnd sum (leaves.map (meanR rnd sum)) - mean (leaves.map mean)| ≤ ((1 + 1 / 2 ^ p) ^ (leaves.length + N) - 1) * M := by
    refine (abs_sub_le _ _ _).trans ((add_le_add e1 e2).trans (le_of_eq ?_))
    rw [pow_add]
    ring
  have hn : (0 : K) < (leaves.length : K) := by
    have := List.length_pos_iff.2 hne
    exact_mod_cast this
  have hlo : lo ≤ mean (leaves.map mean) := by
    unfold mean
    rw [List.length_map, le_div_iff₀ hn]
    have := List.card_nsmul_le_sum (leaves.map mean) lo (by
      intro y hy
      obtain ⟨ys, hys, rfl⟩ := List.mem_map.1 hy
      exact (hmean ys hys).1)
    rw [List.length_map, nsmul_eq_mul] at this
    unfold mean at this
    linarith
  have hhi : mean (leaves.map mean) ≤ hi := by
    unfold mean
    rw [List.length_map, div_le_iff₀ hn]
    have := List.sum_le_card_nsmul (leaves.map mean) hi (by
      intro y hy
      obtain ⟨ys, hys, rfl⟩ := List.mem_map.1 hy
      exact (hmean ys hys).2)
    rw [List.length_map, nsmul_eq_mul] at this
    unfold mean at this
    linarith
  have a := abs_le.1 e3
  exact ⟨fun ys hys => (hleaf ys hys).2, e3, by linarith [a.1], by linarith [a.2]⟩

theorem foldl_sumsTo (g : K → K) (vs : List K) : ∀ {l : List K} {s : K}, SumsTo rnd l s →
    SumsTo rnd (l ++ vs.map g) (vs.foldl (fun a p => rnd (a + g p)) s) := by
  induction vs with
  | nil =>
    intro l s hs
    rw [List.map_nil, List.append_nil]
    exact hs
  | cons v vs ih =>
    intro l s hs
    have := ih (SumsTo.add hs (SumsTo.one (g v)) (List.Perm.refl (l ++ [g v])))
    rw [List.map_cons, List.foldl_cons, ← List.append_cons] at *
    exact this

theorem boostSum_terms (lr v : K) (vs : List K) : boostSum lr (v :: vs) = (v :: vs.map (fun x => lr * x)).sum := by
  have key : ∀ (vs : List K) (v : K), vs.foldl (fun a p => a + lr * p) v = v + (vs.map (fun x => lr * x)).sum := by
    intro vs
    induction vs with
    | nil => simp
    | cons a vs ih =>
      intro v
      rw [List.foldl_cons, ih, List.map_cons, List.sum_cons]
      ring
  rw [List.sum_cons]
  exact key vs v

/-- C147, regression forests with boosting: the answer is within `(1 + 2^-p)^T - 1` times the sum of the sizes of the `T` terms of the true
sum. -/
theorem C147_boosted_partial (h : Nearest p rnd) (hp : 1 ≤ p) (lr v : K) (vs : List K) :
    |boostR rnd lr (v :: vs) - boostSum lr (v :: vs)| ≤
      ((1 + 1 / 2 ^ p) ^ (vs.length + 1) - 1) * (|v| + (vs.map (fun x => |lr * x|)).sum) := by
  have hu : (0 : K) < 1 / 2 ^ p := by positivity
  have hsum : SumsTo rnd (v :: vs.map (fun x => rnd (lr * x))) (boostR rnd lr (v :: vs)) :=
    foldl_sumsTo (fun x => rnd (lr * x)) vs (SumsTo.one v)
  have e1 := hsum.error_abs h hp
  rw [List.length_cons, List.length_map, Nat.add_sub_cancel, List.sum_cons, List.map_cons, List.sum_cons, List.map_map] at e1
  have key : |(vs.map (fun x => rnd (lr * x))).sum - (vs.map (fun x => lr * x)).sum| ≤ 1 / 2 ^ p * (vs.map (fun x => |lr * x|)).sum := by
    clear e1 hsum
    induction vs with
    | nil => simp
    | cons a vs ih =>
      simp only [List.map_cons, List.sum_cons]
      rw [add_sub_add_comm, mul_add]
      exact (abs_add_le _ _).trans (add_le_add (h.rel hp _) ih)
  have key2 : (vs.map (abs ∘ fun x => rnd (lr * x))).sum ≤ (1 + 1 / 2 ^ p) * (vs.map (fun x => |lr * x|)).sum := by
    clear e1 hsum key
    induction vs with
    | nil => simp
    | cons a vs ih =>
      simp only [List.map_cons, List.sum_cons, Function.comp_apply]
      have h1 := h.rel hp (lr * a)
      have h2 := abs_sub_abs_le_abs_sub (rnd (lr * a)) (lr * a)
      rw [mul_add]
      have : |rnd (lr * a)| ≤ (1 + 1 / 2 ^ p) * |lr * a| := by linarith
      exact add_le_add this ih
  rw [boostSum_terms, List.sum_cons]
  have hB : 0 ≤ (vs.map (fun x => |lr * x|)).sum := List.sum_nonneg (by
    intro y hy
    obtain ⟨x, _, rfl⟩ := List.mem_map.1 hy
    exact abs_nonneg _)
  have hv := abs_nonneg v
  have hP1 : (1 : K) ≤ (1 + 1 / 2 ^ p) ^ vs.length := one_le_pow₀ (by linarith)
  generalize (vs.map (fun x => |lr * x|)).sum = B at key key2 hB ⊢
  rw [pow_succ]
  generalize (1 + 1 / 2 ^ p : K) ^ vs.length = P at hP1 e1 ⊢
  generalize boostR rnd lr (v :: vs) = s at e1 ⊢
  generalize (vs.map (fun x => rnd (lr * x))).sum = S1 at e1 key
  generalize (vs.map (fun x => lr * x)).sum = S2 at key ⊢
  generalize (vs.map (abs ∘ fun x => rnd (lr * x))).sum = A at e1 key2
  generalize (1 / 2 ^ p : K) = u at hu key key2 ⊢
  have t : |s - (v + S2)| ≤ |s - (v + S1)| + |S1 - S2| := by
    have := abs_sub_le s (v + S1) (v + S2)
    rwa [add_sub_add_left_eq_sub] at this
  have f1 : (P - 1) * (|v| + A) ≤ (P - 1) * (|v| + (1 + u) * B) := mul_le_mul_of_nonneg_left (by linarith) (by linarith)
  have f2 : 0 ≤ P * u * |v| := by positivity
  have f3 : (P * (1 + u) - 1) * (|v| + B) = (P - 1) * (|v| + (1 + u) * B) + u * B + P * u * |v| := by ring
  linarith

/-- Without rounding these are the formulas of the exact model (`avgProbs`, `boostSum`, `npMean`) and the true averages. -/
theorem C147_exact (nc : Nat) (ps : List (List K)) (lr : K) (vs : List K) (counts : List (List Nat)) :
    forestR id List.sum nc ps = (npArgmax (avgProbs nc ps)).map (fun i => (i, avgProbs nc ps)) ∧
    boostR id lr vs = boostSum lr vs ∧ meanR id List.sum vs = npMean vs ∧
    avgProbs nc (counts.map (leafProbsR id)) = (List.range nc).map (fun j => (trueAvg counts j : K)) := by
  refine ⟨rfl, ?_, rfl, ?_⟩
  · cases vs <;> rfl
  · unfold avgProbs
    refine List.map_congr_left (fun j _ => ?_)
    unfold trueAvg npMean mean
    rw [List.map_map]
    have : counts.map ((fun p : List K => p.getD j 0) ∘ leafProbsR id) =
        counts.map (fun c => ((c.getD j 0 : Nat) : K) / ((c.sum : Nat) : K)) := by
      refine List.map_congr_left (fun c _ => ?_)
      show (leafProbsR id c).getD j 0 = _
      unfold leafProbsR
      by_cases hj : j < c.length
      · rw [List.getD_eq_getElem _ _ (by rw [List.length_map]; exact hj), List.getElem_map, List.getD_eq_getElem _ _ hj]
        rfl
      · rw [List.getD_eq_default _ _ (by rw [List.length_map]; omega), List.getD_eq_default _ _ (by omega), Nat.cast_zero, zero_div]
    rw [this]

end

/-- Counts of two classes in the leaves that three trees answer from. -/
def halfLeaves : List (List Nat) := [[154657, 115930], [204490, 118093], [99549, 238450]]

/-- **C147, refuted for classification**: in double precision, whatever the order of the sums and the rounding of ties, a forest of three trees
answers the first class with probabilities 0.5 and 0.5, although the true average of the second class is larger. -/
theorem C147_refuted {rnd : ℚ → ℚ} {sum : List ℚ → ℚ} (h : Nearest 53 rnd) (hs : SumFn rnd sum) :
    (trueAvg halfLeaves 0 : ℚ) < trueAvg halfLeaves 1 ∧
    forestR rnd sum 2 (halfLeaves.map (leafProbsR rnd)) = some (0, [1 / 2, 1 / 2]) := by
  refine ⟨by decide +kernel, ?_⟩
  have a1 : rnd (154657 / 270587) = ((5148164601922774 : ℤ) : ℚ) * 2 ^ (-53 : ℤ) := h.eq_of_close (by norm_num) (by norm_num) (by norm_num) (by norm_num [abs_lt])
  have a2 : rnd (204490 / 322583) = ((5709793062876796 : ℤ) : ℚ) * 2 ^ (-53 : ℤ) := h.eq_of_close (by norm_num) (by norm_num) (by norm_num) (by norm_num [abs_lt])
  have a3 : rnd (99549 / 337999) = ((5305682434623836 : ℤ) : ℚ) * 2 ^ (-54 : ℤ) := h.eq_of_close (by norm_num) (by norm_num) (by norm_num) (by norm_num [abs_lt])
  have b1 : rnd (115930 / 270587) = ((7718069305636436 : ℤ) : ℚ) * 2 ^ (-54 : ℤ) := h.eq_of_close (by norm_num) (by norm_num) (by norm_num) (by norm_num [abs_lt])
  have b2 : rnd (118093 / 322583) = ((6594812383728392 : ℤ) : ℚ) * 2 ^ (-54 : ℤ) := h.eq_of_close (by norm_num) (by norm_num) (by norm_num) (by norm_num [abs_lt])
  have b3 : rnd (238450 / 337999) = ((6354358037429074 : ℤ) : ℚ) * 2 ^ (-53 : ℤ) := h.eq_of_close (by norm_num) (by norm_num) (by norm_num) (by norm_num [abs_lt])
  have hhalf : rnd (3 / 2 / 3) = 1 / 2 := by
    have : (3 / 2 / 3 : ℚ) = 1 / 2 := by norm_num
    rw [this]
    exact h.exact ⟨1, -1, by norm_num, by norm_num⟩
  have key : ∀ x y z : ℤ, 0 ≤ x → 0 ≤ y → 0 ≤ z → x + y + z = 3 * 2 ^ 51 →
      meanR rnd sum [(x : ℚ) * 2 ^ (-52 : ℤ), y * 2 ^ (-52 : ℤ), z * 2 ^ (-52 : ℤ)] = 1 / 2 := by
    intro x y z hx hy hz hxyz
    have hxyz' : (x : ℚ) + y + z = 3 * 2 ^ 51 := by exact_mod_cast hxyz
    have hx' : (0 : ℚ) ≤ x := by exact_mod_cast hx
    have hy' : (0 : ℚ) ≤ y := by exact_mod_cast hy
    have hz' : (0 : ℚ) ≤ z := by exact_mod_cast hz
    have hw : (0 : ℚ) < 2 ^ (-52 : ℤ) := by positivity
    have hsum := (hs [(x : ℚ) * 2 ^ (-52 : ℤ), y * 2 ^ (-52 : ℤ), z * 2 ^ (-52 : ℤ)] (by simp)).exact h (e := -52) (by
      intro v hv
      simp only [List.mem_cons, List.not_mem_nil, or_false] at hv
      rcases hv with rfl | rfl | rfl
      exacts [⟨x, rfl⟩, ⟨y, rfl⟩, ⟨z, rfl⟩]) (by
      simp only [List.map_cons, List.map_nil, List.sum_cons, List.sum_nil, abs_mul, abs_of_nonneg hx', abs_of_nonneg hy', abs_of_nonneg hz',
        abs_of_pos hw]
      have : (x : ℚ) * 2 ^ (-52 : ℤ) + (y * 2 ^ (-52 : ℤ) + (z * 2 ^ (-52 : ℤ) + 0)) = (x + y + z) * 2 ^ (-52 : ℤ) := by ring
      rw [this, hxyz']
      exact mul_lt_mul_of_pos_right (by norm_num) hw)
    have e : ([(x : ℚ) * 2 ^ (-52 : ℤ), y * 2 ^ (-52 : ℤ), z * 2 ^ (-52 : ℤ)] : List ℚ).sum = 3 / 2 := by
      simp only [List.sum_cons, List.sum_nil]
      have : (x : ℚ) * 2 ^ (-52 : ℤ) + (y * 2 ^ (-52 : ℤ) + (z * 2 ^ (-52 : ℤ) + 0)) = (x + y + z) * 2 ^ (-52 : ℤ) := by ring
      rw [this, hxyz']
      norm_num
    unfold meanR
    rw [hsum, e]
    exact hhalf
  have k0 : meanR rnd sum [rnd (154657 / 270587), rnd (204490 / 322583), rnd (99549 / 337999)] = 1 / 2 := by
    have := key 2574082300961387 2854896531438398 1326420608655959 (by norm_num) (by norm_num) (by norm_num) (by norm_num)
    rw [a1, a2, a3, ← this]
    norm_num
  have k1 : meanR rnd sum [rnd (115930 / 270587), rnd (118093 / 322583), rnd (238450 / 337999)] = 1 / 2 := by
    have := key 1929517326409109 1648703095932098 3177179018714537 (by norm_num) (by norm_num) (by norm_num) (by norm_num)
    rw [b1, b2, b3, ← this]
    norm_num
  have hlist : halfLeaves.map (leafProbsR rnd) = [[rnd (154657 / 270587), rnd (115930 / 270587)], [rnd (204490 / 322583), rnd (118093 / 322583)],
      [rnd (99549 / 337999), rnd (238450 / 337999)]] := by
    unfold halfLeaves leafProbsR
    simp only [List.map_cons, List.map_nil, List.sum_cons, List.sum_nil]
    norm_num
  have havg : (List.range 2).map (fun j => meanR rnd sum ((halfLeaves.map (leafProbsR rnd)).map (fun p => p.getD j 0))) = [1 / 2, 1 / 2] := by
    rw [hlist]
    show [meanR rnd sum [rnd (154657 / 270587), rnd (204490 / 322583), rnd (99549 / 337999)],
      meanR rnd sum [rnd (115930 / 270587), rnd (118093 / 322583), rnd (238450 / 337999)]] = _
    rw [k0, k1]
  unfold forestR
  rw [havg]
  decide +kernel

/-- **C147, refuted for regression**: in double precision, a leaf of three rows whose targets are all the double 0.1 answers something else, which
lies outside the range of the targets. -/
theorem C147_refuted_value {rnd : ℚ → ℚ} {sum : List ℚ → ℚ} (h : Nearest 53 rnd) (hs : SumFn rnd sum) :
    rnd (1 / 10) = tenth ∧ mean [tenth, tenth, tenth] = tenth ∧ meanR rnd sum [tenth, tenth, tenth] ≠ tenth :=
  ⟨(C145_refuted h hs).1, by decide +kernel, (C145_refuted h hs).2.2.1⟩

/-- The hypotheses can be met: the leaf with 3, 5 and 5 rows of three classes answers the second class, in double precision. -/
example : ∃ (rnd : ℚ → ℚ) (sum : List ℚ → ℚ), Nearest 53 rnd ∧ SumFn rnd sum ∧ ∃ probs, leafR rnd sum [3, 5, 5] = .ok (1, probs) := by
  have hN := nearest_roundTo (K := ℚ) (p := 53) (by norm_num)
  refine ⟨roundTo 53, sumSeq (roundTo 53), hN, sumSeq_ok _, ?_⟩
  obtain ⟨i, c, probs, h1, h2, h3, _⟩ := C147_leaf hN (by norm_num) (sumSeq_ok _) (counts := [3, 5, 5]) (by norm_num) (by norm_num) (by norm_num)
  have hi : i = 1 := by
    have b1 := h3 1 5 rfl
    have b0 := h3 0 3 rfl
    match i, h2 with
    | 0, h2 =>
      have : 3 = c := Option.some.inj h2
      omega
    | 1, _ => rfl
    | 2, h2 =>
      have : 5 = c := Option.some.inj h2
      have := b1.2 (by omega)
      omega
  rw [hi] at h1
  exact ⟨probs, h1⟩

/-- Two trees with 1 of 3 and 3 of 4 rows of the second class: the forest answers the second class, in every arithmetic of 53 bits. -/
example {rnd : ℚ → ℚ} {sum : List ℚ → ℚ} (h : Nearest 53 rnd) (hs : SumFn rnd sum) :
    ∃ avg, forestR rnd sum 2 ([[2, 1], [1, 3]].map (leafProbsR rnd)) = some (1, avg) := by
  obtain ⟨i, avg, h1, _, _, _, _, h6⟩ := C147_forest_partial h (by norm_num) hs (counts := [[2, 1], [1, 3]]) (by simp) (by decide) (nc := 2) (by norm_num)
  have hE : (avgErr 53 2 : ℚ) ≤ 22 / 2 ^ 53 := (avgErr_le 53 2 (by norm_num)).trans (by norm_num)
  have hv0 : (trueAvg [[2, 1], [1, 3]] 0 : ℚ) = 11 / 24 := by decide +kernel
  have hv1 : (trueAvg [[2, 1], [1, 3]] 1 : ℚ) = 13 / 24 := by decide +kernel
  have := h6 1 (by norm_num) (by
    intro j hj hj1
    obtain rfl : j = 0 := by omega
    show (trueAvg [[2, 1], [1, 3]] 0 : ℚ) + 2 * avgErr 53 2 < trueAvg [[2, 1], [1, 3]] 1
    rw [hv0, hv1]
    have : (22 : ℚ) / 2 ^ 53 < 1 / 48 := by norm_num
    linarith)
  rw [this] at h1
  exact ⟨avg, h1⟩

end FF
