import Verif.Proofs.Reductions
import Mathlib.Tactic.Positivity
import Mathlib.Tactic.FieldSimp
import Mathlib.Tactic.Ring

/-! # The variance estimate of `get_mse`, and variances of a whole population -/

set_option linter.unusedSectionVars false

namespace FF

open Spec

variable {K : Type} [Field K] [LinearOrder K] [IsStrictOrderedRing K] [FloorRing K] [NpFun K] {G : Type}

/-- Zero or NaN. -/
def ZN (x : XF K) : Prop := x = .fin 0 ∨ x = .nan

theorem ZN.add {x y : XF K} (hx : ZN x) (hy : ZN y) : ZN (x.add y) := by
  rcases hx with rfl | rfl <;> rcases hy with rfl | rfl <;> simp [ZN, XF.add]

theorem XF.mul_zero_zn (x : XF K) : ZN (x.mul (.fin 0)) := by
  cases x <;> simp [ZN, XF.mul, XF.signInf]

theorem ZN.mul_left {x : XF K} (hx : ZN x) (y : XF K) : ZN (y.mul x) := by
  rcases hx with rfl | rfl
  · exact XF.mul_zero_zn y
  · right; cases y <;> rfl

theorem ZN.foldl (l : List (XF K)) (h : ∀ x ∈ l, ZN x) {a : XF K} (ha : ZN a) : ZN (l.foldl XF.add a) := by
  induction l generalizing a with
  | nil => exact ha
  | cons x xs ih =>
    exact ih (fun y hy => h y (List.mem_cons_of_mem _ hy)) (ha.add (h x List.mem_cons_self))

theorem ZN.sum {l : List (XF K)} (h : ∀ x ∈ l, ZN x) : ZN (XF.sum l) := ZN.foldl l h (Or.inl rfl)

theorem ZN.nanToNum {x : XF K} (h : ZN x) : x.nanToNum = .fin 0 := by
  rcases h with rfl | rfl <;> rfl

theorem varProbs_full (p : List (XF K)) (n : Nat) : ∀ v ∈ varProbs p n (some n), ZN v := by
  intro v hv
  unfold varProbs at hv
  obtain ⟨x, _, rfl⟩ := List.mem_map.1 hv
  simp only [xnat, XF.sub_fin, sub_self]
  apply ZN.mul_left
  by_cases h : (n : K) - 1 = 0
  · right; rw [h, XF.div_zero]; simp [XF.signInf]
  · left; rw [XF.div_fin _ _ h, _root_.zero_div]

theorem getGini_full (counts : List Nat) (n : Nat) {r : XF K × XF K} (h : getGini counts n (some n) = .ok r) : ZN r.2 := by
  unfold getGini at h
  simp only [] at h
  split at h
  · cases h
  · cases h
    apply ZN.sum
    intro x hx
    obtain ⟨q, hq, rfl⟩ := List.mem_map.1 hx
    apply ZN.mul_left
    have := List.of_mem_zip hq
    exact varProbs_full _ _ _ (List.mem_of_mem_dropLast this.2)

theorem getEntropy_full (counts : List Nat) (n : Nat) {r : XF K × XF K} (h : getEntropy counts n (some n) = .ok r) :
    ZN r.2 := by
  unfold getEntropy at h
  simp only [] at h
  split at h
  · cases h
  · next v hv =>
    cases h
    show ZN v
    unfold entropyVar at hv
    split at hv
    · next l0 l1 v0 vs heq0 heq =>
      cases hv
      have h0 : ZN v0 := varProbs_full (probs counts n) n v0 (by rw [heq]; exact List.mem_cons_self)
      apply ZN.sum
      intro x hx
      simp only [List.mem_cons, List.not_mem_nil, or_false] at hx
      rcases hx with rfl | rfl <;> exact h0.mul_left _
    · cases hv
    · cases hv; left; rfl

theorem clsV_full (m : Criterion) (classes ys : List K) : ZN (clsV m classes ys (some ys.length)) := by
  unfold clsV
  split
  · next p hp =>
    cases m with
    | gini => exact getGini_full _ _ hp
    | entropy => exact getEntropy_full _ _ hp
    | mse => cases hp
  · right; rfl

theorem clsVarRed_full (m : Criterion) (classes : List K) (S : List (K × K)) (hS : S ≠ []) (t : K) :
    ZN (clsVarRed (clsV m classes) S t (some S.length)) := by
  have hSl : 0 < S.length := List.length_pos_of_ne_nil hS
  unfold clsVarRed
  simp only [Option.map_some, Nat.mul_div_cancel _ hSl]
  refine ((clsV_full m classes _).mul_left _).add ((clsV_full m classes _).mul_left _) |>.add ?_
  have := clsV_full m classes (S.map Prod.snd)
  rwa [List.length_map] at this

theorem regVarRed_full {h : Hist K} {edges : List K} {S : List (K × K)} (hr : RegRep h edges S)
    (hS : S ≠ []) (b : Nat) : regVarRed h S.length (some S.length) b = 0 := by
  have hSl : S.length ≠ 0 := by simpa using hS
  have hsh : ∀ k : Nat, popShare (some S.length) k S.length = some k := by
    intro k
    simp only [popShare, Option.map_some]
    rw [Nat.mul_div_cancel _ (Nat.pos_of_ne_zero hSl)]
  unfold regVarRed
  simp only [hsh, mseVarK_full]
  have hcn : h.currPile.n = S.length := by rw [hr.curr.n, List.length_map]
  rw [← hcn, mseVarK_full]
  simp

theorem popShare_self (pop : Option Nat) {n : Nat} (h : n ≠ 0) : popShare pop n n = pop := by
  cases pop with
  | none => rfl
  | some s =>
    simp only [popShare, Option.map_some]
    rw [Nat.mul_div_cancel_left _ (Nat.pos_of_ne_zero h)]

theorem regRed_oneSided {h : Hist K} {edges : List K} {S : List (K × K)} (hr : RegRep h edges S) (hS : S ≠ [])
    (pop : Option Nat) (b : Nat) (hb : b < edges.length)
    (ho : labelsGt S (edges.getD b 0) = [] ∨ labelsLe S (edges.getD b 0) = []) : regRed h S.length pop b = 0 := by
  have hSn : S.length ≠ 0 := by simpa using hS
  have hSl : (S.length : K) ≠ 0 := by exact_mod_cast hSn
  have e0 : edges.getD b 0 = edges[b] := List.getD_eq_getElem _ _ hb
  rw [e0] at ho
  have hcn : h.currPile.n = S.length := by rw [hr.curr.n, List.length_map]
  unfold regRed
  simp only []
  rcases ho with ho | ho
  · have h1 := hr.onlyL b hb ho
    have h2 : (h.rightPile.getD b Pile.zero).n = 0 := by rw [(hr.right b hb).n, ho]; rfl
    rw [h1, h2, hcn, popShare_self pop hSn, div_self hSl]
    simp
  · have h1 := hr.onlyR b hb ho
    have h2 : (h.leftPile.getD b Pile.zero).n = 0 := by rw [(hr.left b hb).n, ho]; rfl
    rw [h1, h2, hcn, popShare_self pop hSn, div_self hSl]
    simp

/-! ### Sign of the variance estimate -/

theorem XF.fin_div_cases (x y : K) : (y ≠ 0 ∧ XF.div (.fin x) (.fin y) = .fin (x / y)) ∨
    (y = 0 ∧ XF.div (.fin x) (.fin y) = XF.signInf x) := by
  by_cases h : y = 0
  · right; exact ⟨h, by rw [h, XF.div_zero]⟩
  · left; exact ⟨h, XF.div_fin _ _ h⟩

theorem mseK_small (p : Pile K) (pop : Option Nat) (h : p.n ≤ 1) : mseK p pop = 0 := by
  unfold mseK mseEst
  have hz : ∀ a b : K, (p.n = 0 → a = 0) → (p.n = 1 → b = 0) → (XF.div (.fin a) (.fin b)).nanToNum = .fin 0 := by
    intro a b ha hb
    rcases XF.fin_div_cases a b with ⟨h1, h2⟩ | ⟨h1, h2⟩
    · have : p.n = 0 := by
        by_contra hn
        exact h1 (hb (by omega))
      rw [h2, ha this, _root_.zero_div]; rfl
    · rw [h2, XF.signInf_nanToNum]
  cases pop with
  | none =>
    simp only [xnat, XF.mul_fin, XF.sub_fin]
    rw [hz _ _ (fun h => by simp [h]) (fun h => by simp [h])]; rfl
  | some s =>
    simp only [xnat, XF.mul_fin, XF.sub_fin]
    rw [hz _ _ (fun h => by simp [h]) (fun h => by simp [h])]; rfl

theorem mseK_nonneg (p : Pile K) (pop : Option Nat) (hv : 0 ≤ p.var) (hp : ∀ s, pop = some s → p.n ≤ s) : 0 ≤ mseK p pop := by
  by_cases h : p.n ≤ 1
  · rw [mseK_small p pop h]
  · have h2 : (2 : K) ≤ (p.n : K) := by
      have : 2 ≤ p.n := by omega
      exact_mod_cast this
    have hn1 : (0 : K) < (p.n : K) - 1 := by linarith
    unfold mseK mseEst
    cases pop with
    | none =>
      simp only [xnat, XF.mul_fin, XF.sub_fin]
      rw [XF.div_fin _ _ hn1.ne', XF.nanToNum_fin]
      show 0 ≤ p.var * (p.n : K) / ((p.n : K) - 1)
      positivity
    | some s =>
      have hs : (2 : K) ≤ (s : K) := by
        have : 2 ≤ s := by have := hp s rfl; omega
        exact_mod_cast this
      have hs1 : (0 : K) < (s : K) - 1 := by linarith
      simp only [xnat, XF.mul_fin, XF.sub_fin]
      have hd : (0 : K) < ((p.n : K) - 1) * (s : K) := by apply mul_pos hn1; linarith
      rw [XF.div_fin _ _ hd.ne', XF.nanToNum_fin]
      show 0 ≤ p.var * ((p.n : K) * ((s : K) - 1)) / (((p.n : K) - 1) * (s : K))
      apply div_nonneg _ hd.le
      apply mul_nonneg hv
      apply mul_nonneg _ hs1.le
      linarith

/-- Not a finite number. -/
def NonFin (x : XF K) : Prop := ∀ v, x ≠ .fin v

theorem NonFin.nanToNum {x : XF K} (h : NonFin x) : x.nanToNum = .fin 0 := by
  cases x with
  | fin v => exact absurd rfl (h v)
  | _ => rfl

theorem nonFin_signInf (x : K) : NonFin (XF.signInf x) := by
  intro v h
  unfold XF.signInf at h
  split_ifs at h

theorem NonFin.mul_fin {x : XF K} (h : NonFin x) (y : K) : NonFin (x.mul (.fin y)) := by
  cases x with
  | fin v => exact absurd rfl (h v)
  | nan => intro v hv; cases hv
  | pinf => exact nonFin_signInf _
  | ninf => exact nonFin_signInf _

theorem NonFin.add_left {x : XF K} (h : NonFin x) (y : XF K) : NonFin (x.add y) := by
  cases x with
  | fin v => exact absurd rfl (h v)
  | _ => cases y <;> intro v hv <;> cases hv

/-- The variance of the estimated MSE is never negative. -/
theorem mseVarK_nonneg (p : Pile K) (pop : Option Nat) (hp : ∀ s, pop = some s → p.n ≤ s) :
    0 ≤ mseVarK p pop := by
  unfold mseVarK mseVar
  rw [mseEst_eq]
  by_cases h : p.n ≤ 1
  · rw [mseK_small p pop h]
    cases pop with
    | none =>
      simp only [xnat, XF.mul_fin, XF.sub_fin, mul_zero, zero_mul]
      rcases XF.fin_div_cases (0 : K) ((p.n : K) - 1) with ⟨_, h2⟩ | ⟨_, h2⟩
      · rw [h2, _root_.zero_div, XF.sub_fin, sub_zero]
        rcases XF.fin_div_cases (0 : K) (p.n : K) with ⟨_, h3⟩ | ⟨_, h3⟩
        · rw [h3, _root_.zero_div]; exact le_refl _
        · rw [h3, XF.signInf_nanToNum]; exact le_refl _
      · rw [h2]
        simp [XF.signInf, XF.sub, XF.neg, XF.add, XF.div, XF.nanToNum, XF.val]
    | some s =>
      simp only [xnat, XF.mul_fin, XF.sub_fin, mul_zero]
      rw [ZN.nanToNum ((XF.mul_zero_zn _).add (XF.mul_zero_zn _))]
      exact le_refl _
  · have h2 : (2 : K) ≤ (p.n : K) := by
      have : 2 ≤ p.n := by omega
      exact_mod_cast this
    have hn1 : (0 : K) < (p.n : K) - 1 := by linarith
    have hn0 : (0 : K) < (p.n : K) := by linarith
    set e := mseK p pop with he
    have hsq : 0 ≤ e * e := mul_self_nonneg e
    cases pop with
    | none =>
      simp only [xnat, XF.mul_fin, XF.sub_fin]
      rw [XF.div_fin _ _ hn1.ne', XF.sub_fin, XF.div_fin _ _ hn0.ne', XF.nanToNum_fin]
      show 0 ≤ (3 * (e * e) - e * e * ((p.n : K) - 3) / ((p.n : K) - 1)) / (p.n : K)
      have : (3 * (e * e) - e * e * ((p.n : K) - 3) / ((p.n : K) - 1)) / (p.n : K) = 2 * (e * e) / ((p.n : K) - 1) := by
        field_simp; ring
      rw [this]; positivity
    | some s =>
      have hps := hp s rfl
      simp only [xnat, XF.mul_fin, XF.sub_fin, XF.add_fin]
      by_cases h3 : s ≤ 3
      · have hd : ((p.n : K) * ((p.n : K) - 1) * ((s : K) - 1) * ((s : K) - 2) * ((s : K) - 3)) = 0 := by
          have : s = 2 ∨ s = 3 := by omega
          rcases this with rfl | rfl <;> simp
        rw [hd, XF.div_zero]
        rw [NonFin.nanToNum (((nonFin_signInf _).mul_fin _).add_left _)]
        exact le_refl _
      · have h4 : (4 : K) ≤ (s : K) := by
          have : 4 ≤ s := by omega
          exact_mod_cast this
        have hps' : (p.n : K) ≤ (s : K) := by exact_mod_cast hps
        have a1 : (0 : K) < (s : K) - 1 := by linarith
        have a2 : (0 : K) < (s : K) - 2 := by linarith
        have a3 : (0 : K) < (s : K) - 3 := by linarith
        have d1 : (0 : K) < ((p.n : K) * ((p.n : K) - 1) * ((s : K) - 1) * ((s : K) - 2) * ((s : K) - 3)) := by positivity
        have d2 : (0 : K) < ((p.n : K) * ((p.n : K) - 1) * (((s : K) - 1) * ((s : K) - 1)) * ((s : K) - 2) * ((s : K) - 3)) := by
          positivity
        rw [XF.div_fin _ _ d1.ne', XF.div_fin _ _ d2.ne', XF.neg_fin, XF.mul_fin, XF.mul_fin, XF.add_fin, XF.nanToNum_fin]
        show 0 ≤ _ + _
        generalize (p.n : K) = n at *
        generalize (s : K) = N at *
        have key : ∀ c1 c3 : K, c1 * (3 * (e * e)) + c3 * (e * e) = (3 * c1 + c3) * (e * e) := by intros; ring
        rw [key]
        apply mul_nonneg _ hsq
        have : 3 * (N * (N - n) * (N * n - N - n - 1) / (n * (n - 1) * (N - 1) * (N - 2) * (N - 3)))
            + -(N * (N - n) * (N * N * n - 3 * n - 3 * (N * N) + 6 * N - 3) /
                (n * (n - 1) * ((N - 1) * (N - 1)) * (N - 2) * (N - 3)))
            = N * (N - n) * (2 * (N * N * n - 3 * N * n + 3 * n - 3 * N + 3)) /
              (n * (n - 1) * ((N - 1) * (N - 1)) * (N - 2) * (N - 3)) := by
          field_simp; ring
        rw [this]
        apply div_nonneg _ d2.le
        have hbr : 0 ≤ N * N * n - 3 * N * n + 3 * n - 3 * N + 3 := by nlinarith [mul_nonneg a3.le (sub_nonneg.2 h2)]
        have : 0 ≤ N - n := by linarith
        have : 0 ≤ N := by linarith
        positivity

end FF
