import Verif.Model.Criteria
import Verif.Proofs.Variance
import Mathlib.Algebra.Order.Chebyshev
import Mathlib.Algebra.BigOperators.Group.List.Lemmas

/-! # Lemmas about the impurity computations -/

set_option linter.unusedSectionVars false

namespace FF

open Spec

variable {K : Type} [Field K] [LinearOrder K] [IsStrictOrderedRing K] [FloorRing K] [NpFun K] {G : Type}

@[simp] theorem XF.add_fin (x y : K) : XF.add (.fin x) (.fin y) = .fin (x + y) := rfl
@[simp] theorem XF.neg_fin (x : K) : XF.neg (.fin x) = .fin (-x) := rfl
@[simp] theorem XF.sub_fin (x y : K) : XF.sub (.fin x) (.fin y) = .fin (x - y) := by simp [XF.sub, sub_eq_add_neg]
@[simp] theorem XF.mul_fin (x y : K) : XF.mul (.fin x) (.fin y) = .fin (x * y) := rfl
@[simp] theorem XF.nanToNum_fin (x : K) : XF.nanToNum (.fin x) = .fin x := rfl
theorem XF.div_fin (x y : K) (h : y ≠ 0) : XF.div (.fin x) (.fin y) = .fin (x / y) := by simp [XF.div, h]
theorem XF.div_zero (x : K) : XF.div (.fin x) (.fin 0) = XF.signInf x := by simp [XF.div]
theorem XF.signInf_nanToNum (x : K) : (XF.signInf x).nanToNum = .fin 0 := by
  unfold XF.signInf; split_ifs <;> rfl

theorem XF.foldl_add_fin (l : List K) (a : K) : (l.map XF.fin).foldl XF.add (.fin a) = .fin (a + l.sum) := by
  induction l generalizing a with
  | nil => simp
  | cons x l ih => simp only [List.map_cons, List.foldl_cons, XF.add_fin, ih, List.sum_cons, add_assoc]

theorem XF.sum_fin (l : List K) : XF.sum (l.map XF.fin) = .fin l.sum := by
  unfold XF.sum; rw [XF.foldl_add_fin, zero_add]

/-- Probability of a class; 0 in an empty set. -/
theorem probs_eq (counts : List Nat) (n : Nat) :
    (probs counts n : List (XF K)) = counts.map (fun (c : Nat) => XF.fin ((c : K) / (n : K))) := by
  unfold probs xnat
  apply List.map_congr_left
  intro c _
  by_cases h : (n : K) = 0
  · rw [h, XF.div_zero, XF.signInf_nanToNum, div_zero]
  · rw [XF.div_fin _ _ h, XF.nanToNum_fin]

/-- Gini impurity of a count vector. -/
def giniK (counts : List Nat) (n : Nat) : K := 1 - (counts.map (fun (c : Nat) => ((c : K) / (n : K)) ^ 2)).sum

theorem giniImp_eq (counts : List Nat) (n : Nat) : giniImp (probs counts n : List (XF K)) = .fin (giniK counts n) := by
  unfold giniImp giniK
  rw [probs_eq, List.map_map]
  have : (((fun x : XF K => x.mul x) ∘ fun (c : Nat) => XF.fin ((c : K) / (n : K))))
      = XF.fin ∘ (fun (c : Nat) => ((c : K) / (n : K)) ^ 2) := by
    funext c; simp [pow_two]
  rw [this, ← List.map_map, XF.sum_fin, XF.sub_fin]

theorem getGini_ok (counts : List Nat) (n : Nat) (pop : Option Nat) (h : counts ≠ []) :
    ∃ v, getGini (K := K) counts n pop = .ok (.fin (giniK counts n), v) := by
  unfold getGini
  simp only []
  have hp : (probs counts n : List (XF K)) ≠ [] := by rw [probs_eq]; simpa using h
  rw [List.getLast?_eq_some_getLast hp]
  simp only []
  rw [giniImp_eq]
  exact ⟨_, rfl⟩

/-- The class counts of a list of labels. -/
def countsOf (classes ys : List K) : List Nat := classes.map (fun c => ys.count c)

theorem sum_countsOf {classes ys : List K} (hn : classes.Nodup) (h : ∀ y ∈ ys, y ∈ classes) :
    (countsOf classes ys).sum = ys.length := by
  unfold countsOf
  induction ys with
  | nil => simp
  | cons y ys ih =>
    have ih := ih (fun z hz => h z (List.mem_cons_of_mem _ hz))
    have hy : y ∈ classes := h y List.mem_cons_self
    simp only [List.count_cons, List.length_cons]
    rw [← ih]
    have key : ∀ (cs : List K), cs.Nodup → (cs.map (fun c => ys.count c + if (y == c) = true then 1 else 0)).sum
        = (cs.map (fun c => ys.count c)).sum + if y ∈ cs then 1 else 0 := by
      intro cs hcs
      induction cs with
      | nil => simp
      | cons c cs ihc =>
        rw [List.nodup_cons] at hcs
        rw [List.map_cons, List.sum_cons, ihc hcs.2, List.map_cons, List.sum_cons]
        by_cases hyc : y = c
        · subst hyc
          rw [if_pos (by simp), if_neg hcs.1, if_pos List.mem_cons_self]; omega
        · rw [if_neg (by simpa using hyc)]
          simp only [List.mem_cons, hyc, false_or]; omega
    rw [key classes hn, if_pos hy]

theorem sum_map_filter_split {α M : Type} [AddCommMonoid M] (l : List α) (p : α → Bool) (f : α → M) :
    (l.map f).sum = ((l.filter p).map f).sum + ((l.filter (fun a => !p a)).map f).sum := by
  rw [← List.sum_append, ← List.map_append]
  exact ((List.filter_append_perm p l).map f).sum_eq.symm

/-- Sums over the classes and over the distinct labels agree if the labels that do not occur contribute nothing. -/
theorem sum_classes_eq_dedup {M : Type} [AddCommMonoid M] {classes ys : List K} (hn : classes.Nodup) (h : ∀ y ∈ ys, y ∈ classes)
    (f : K → M) (h0 : ∀ c, c ∉ ys → f c = 0) : (classes.map f).sum = (ys.dedup.map f).sum := by
  rw [sum_map_filter_split classes (fun c => decide (c ∈ ys)) f]
  have h2 : ((classes.filter (fun c => !decide (c ∈ ys))).map f).sum = 0 := by
    apply List.sum_eq_zero
    intro x hx
    obtain ⟨c, hc, rfl⟩ := List.mem_map.1 hx
    rw [List.mem_filter] at hc
    exact h0 c (by simpa using hc.2)
  rw [h2, add_zero]
  have hp : (classes.filter (fun c => decide (c ∈ ys))).Perm ys.dedup := by
    rw [List.perm_ext_iff_of_nodup (hn.filter _) (List.nodup_dedup _)]
    intro c
    simp only [List.mem_filter, decide_eq_true_eq, List.mem_dedup]
    exact ⟨fun hh => hh.2, fun hh => ⟨h c hh, hh⟩⟩
  exact (hp.map f).sum_eq

theorem freq_eq_zero {ys : List K} {c : K} (h : c ∉ ys) : freq ys c = 0 := by
  unfold freq; rw [List.count_eq_zero_of_not_mem h]; simp

theorem freq_nonneg (ys : List K) (c : K) : 0 ≤ freq ys c := by unfold freq; positivity

theorem freq_le_one (ys : List K) (c : K) : freq ys c ≤ 1 := by
  unfold freq
  apply div_le_one_of_le₀
  · exact_mod_cast List.count_le_length
  · positivity

theorem gini_eq {classes ys : List K} (hn : classes.Nodup) (h : ∀ y ∈ ys, y ∈ classes) :
    gini ys = 1 - (classes.map (fun c => freq ys c ^ 2)).sum := by
  unfold gini
  rw [sum_classes_eq_dedup hn h (fun c => freq ys c ^ 2) (fun c hc => by simp [freq_eq_zero hc])]

theorem giniK_countsOf {classes ys : List K} (hn : classes.Nodup) (h : ∀ y ∈ ys, y ∈ classes) :
    giniK (countsOf classes ys) ys.length = gini ys := by
  rw [gini_eq hn h]
  unfold giniK countsOf freq
  rw [List.map_map]
  rfl

theorem cast_list_sum (l : List Nat) : ((l.sum : Nat) : K) = (l.map (fun (c : Nat) => (c : K))).sum := by
  induction l with
  | nil => simp
  | cons a l ih => simp [ih]

theorem sum_map_div {α : Type} (l : List α) (f : α → K) (d : K) : (l.map (fun a => f a / d)).sum = (l.map f).sum / d := by
  induction l with
  | nil => simp
  | cons a l ih => simp [ih, add_div]

theorem sum_freq {classes ys : List K} (hn : classes.Nodup) (h : ∀ y ∈ ys, y ∈ classes) (hy : ys ≠ []) :
    (classes.map (fun c => freq ys c)).sum = 1 := by
  have h1 := sum_countsOf hn h
  have h2 : ((classes.map (fun c => (ys.count c : K)))).sum = (ys.length : K) := by
    rw [← h1, cast_list_sum]
    unfold countsOf
    rw [List.map_map]
    rfl
  have hpos : (ys.length : K) ≠ 0 := by
    have := List.length_pos_iff.2 hy
    positivity
  unfold freq
  rw [sum_map_div, h2, div_self hpos]

theorem sum_map_le {α : Type} (l : List α) (f g : α → K) (h : ∀ a ∈ l, f a ≤ g a) : (l.map f).sum ≤ (l.map g).sum :=
  List.sum_le_sum h

theorem gini_nonneg {ys : List K} (hy : ys ≠ []) : 0 ≤ gini ys := by
  have h1 := sum_freq (List.nodup_dedup ys) (fun y hy => List.mem_dedup.2 hy) hy
  have h2 : (ys.dedup.map (fun c => freq ys c ^ 2)).sum ≤ (ys.dedup.map (fun c => freq ys c)).sum := by
    apply sum_map_le
    intro c _
    have a := freq_nonneg ys c
    have b := freq_le_one ys c
    nlinarith
  unfold gini
  linarith

theorem gini_le {classes ys : List K} (hn : classes.Nodup) (h : ∀ y ∈ ys, y ∈ classes) (hy : ys ≠ []) :
    gini ys ≤ 1 - 1 / (classes.length : K) := by
  have h1 := sum_freq hn h hy
  rw [gini_eq hn h]
  have hk : (0 : K) < (classes.length : K) := by
    obtain ⟨y, hy'⟩ := List.exists_mem_of_ne_nil _ hy
    exact_mod_cast List.length_pos_of_mem (h y hy')
  have h3 := sum_sq_sub (classes.map (fun c => freq ys c)) (1 / (classes.length : K))
  rw [List.map_map, List.map_map, h1, List.length_map] at h3
  have h4 : 0 ≤ (classes.map ((fun y => (y - 1 / (classes.length : K)) ^ 2) ∘ fun c => freq ys c)).sum := by
    apply List.sum_nonneg
    intro x hx
    obtain ⟨c, _, rfl⟩ := List.mem_map.1 hx
    exact sq_nonneg _
  rw [h3] at h4
  have h5 : (classes.length : K) * (1 / (classes.length : K)) ^ 2 = 1 / (classes.length : K) := by field_simp
  rw [h5] at h4
  have h6 : (classes.map ((fun y => y ^ 2) ∘ fun c => freq ys c)).sum = (classes.map (fun c => freq ys c ^ 2)).sum := rfl
  linarith

theorem gini_eq_zero_iff {ys : List K} (hy : ys ≠ []) : gini ys = 0 ↔ ∃ c, ∀ y ∈ ys, y = c := by
  have h1 := sum_freq (List.nodup_dedup ys) (fun y hy => List.mem_dedup.2 hy) hy
  constructor
  · intro h0
    obtain ⟨c, hc⟩ := List.exists_mem_of_ne_nil _ hy
    refine ⟨c, ?_⟩
    unfold gini at h0
    have hs : (ys.dedup.map (fun c => freq ys c - freq ys c ^ 2)).sum = 0 := by
      have : ∀ l : List K, (l.map (fun c => freq ys c - freq ys c ^ 2)).sum
          = (l.map (fun c => freq ys c)).sum - (l.map (fun c => freq ys c ^ 2)).sum := by
        intro l
        induction l with
        | nil => simp
        | cons a l ih => simp only [List.map_cons, List.sum_cons, ih]; ring
      rw [this]; linarith
    have hz : freq ys c - freq ys c ^ 2 = 0 := by
      have hnn : ∀ x ∈ ys.dedup.map (fun c => freq ys c - freq ys c ^ 2), 0 ≤ x := by
        intro x hx
        obtain ⟨d, _, rfl⟩ := List.mem_map.1 hx
        have a := freq_nonneg ys d
        have b := freq_le_one ys d
        nlinarith
      have hle := List.single_le_sum hnn _ (List.mem_map.2 ⟨c, List.mem_dedup.2 hc, rfl⟩)
      rw [hs] at hle
      exact le_antisymm hle (hnn _ (List.mem_map.2 ⟨c, List.mem_dedup.2 hc, rfl⟩))
    have hlen : (0 : K) < (ys.length : K) := by exact_mod_cast List.length_pos_iff.2 hy
    have hcp : (0 : K) < (ys.count c : K) := by exact_mod_cast List.count_pos_iff.2 hc
    have hf : freq ys c = 1 := by
      have hpos : freq ys c ≠ 0 := by unfold freq; positivity
      have : freq ys c * (1 - freq ys c) = 0 := by linarith [hz, pow_two (freq ys c)]
      rcases mul_eq_zero.1 this with h | h
      · exact absurd h hpos
      · linarith
    unfold freq at hf
    rw [div_eq_one_iff_eq hlen.ne'] at hf
    have hcl : ys.count c = ys.length := by exact_mod_cast hf
    intro y hy'
    exact (List.count_eq_length.1 hcl y hy').symm
  · rintro ⟨c, hc⟩
    have hmem : ∀ y ∈ ys, y ∈ [c] := fun y hy' => by simp [hc y hy']
    rw [gini_eq (List.nodup_singleton c) hmem]
    have hf : freq ys c = 1 := by
      unfold freq
      rw [List.count_eq_length.2 (fun y hy' => (hc y hy').symm)]
      have : (ys.length : K) ≠ 0 := by
        have := List.length_pos_iff.2 hy
        positivity
      exact div_self this
    simp [hf]

theorem gini_nil : gini ([] : List K) = 1 := by simp [gini]

theorem gini_perm {a b : List K} (h : a.Perm b) : gini a = gini b := by
  rw [gini_eq (List.nodup_dedup a) (fun y hy => List.mem_dedup.2 hy),
    gini_eq (List.nodup_dedup a) (fun y hy => List.mem_dedup.2 (h.mem_iff.2 hy))]
  have : ∀ c, freq a c = freq b c := by intro c; unfold freq; rw [h.count_eq, h.length_eq]
  simp [this]

/-- Splitting labels in two groups does not increase the weighted Gini impurity. -/
theorem gini_change_nonpos (a b c : List K) (hp : c.Perm (a ++ b)) :
    (a.length : K) / (c.length : K) * gini a + (b.length : K) / (c.length : K) * gini b - gini c ≤ 0 := by
  rcases eq_or_ne a [] with ha | ha
  · subst ha
    rw [List.nil_append] at hp
    rw [gini_perm hp, hp.length_eq]
    rcases eq_or_ne b [] with hb | hb
    · subst hb; simp [gini_nil]
    · have : (b.length : K) ≠ 0 := by
        have := List.length_pos_iff.2 hb
        positivity
      rw [div_self this]; simp
  rcases eq_or_ne b [] with hb | hb
  · subst hb
    rw [List.append_nil] at hp
    rw [gini_perm hp, hp.length_eq]
    have : (a.length : K) ≠ 0 := by
      have := List.length_pos_iff.2 ha
      positivity
    rw [div_self this]; simp
  have hpa : (0 : K) < (a.length : K) := by exact_mod_cast List.length_pos_iff.2 ha
  have hpb : (0 : K) < (b.length : K) := by exact_mod_cast List.length_pos_iff.2 hb
  have hlen : (c.length : K) = (a.length : K) + b.length := by
    rw [hp.length_eq]; push_cast [List.length_append]; rfl
  have D : ∀ y, y ∈ c → y ∈ c.dedup := fun y hy => List.mem_dedup.2 hy
  rw [gini_eq (List.nodup_dedup c) (ys := a) (fun y hy => D y (hp.mem_iff.2 (List.mem_append_left _ hy))),
    gini_eq (List.nodup_dedup c) (ys := b) (fun y hy => D y (hp.mem_iff.2 (List.mem_append_right _ hy))),
    gini_eq (List.nodup_dedup c) (ys := c) D]
  have hterm : ∀ d : K, freq c d ^ 2 ≤ (a.length : K) / (c.length : K) * freq a d ^ 2 + (b.length : K) / (c.length : K) * freq b d ^ 2 := by
    intro d
    have hcnt : (c.count d : K) = (a.count d : K) + b.count d := by
      rw [hp.count_eq, List.count_append]; push_cast; rfl
    unfold freq
    rw [hcnt, hlen]
    set p := (a.length : K)
    set q := (b.length : K)
    set x := (a.count d : K)
    set y := (b.count d : K)
    have e : p / (p + q) * (x / p) ^ 2 + q / (p + q) * (y / q) ^ 2 - ((x + y) / (p + q)) ^ 2
        = (x * q - y * p) ^ 2 / (p * q * (p + q) ^ 2) := by
      have : p + q ≠ 0 := by positivity
      field_simp
      ring
    have e2 : 0 ≤ (x * q - y * p) ^ 2 / (p * q * (p + q) ^ 2) := by positivity
    linarith
  have hsum : (c.dedup.map (fun d => freq c d ^ 2)).sum
      ≤ (a.length : K) / (c.length : K) * (c.dedup.map (fun d => freq a d ^ 2)).sum
        + (b.length : K) / (c.length : K) * (c.dedup.map (fun d => freq b d ^ 2)).sum := by
    rw [← List.sum_map_mul_left, ← List.sum_map_mul_left, ← List.sum_map_add]
    exact sum_map_le _ _ _ (fun d _ => hterm d)
  have hone : (a.length : K) / (c.length : K) + (b.length : K) / (c.length : K) = 1 := by
    rw [← add_div, ← hlen, div_self]
    rw [hlen]; positivity
  nlinarith

end FF
