import Verif.Spec.Sampling
import Mathlib.Algebra.BigOperators.Ring.Finset
import Mathlib.Algebra.BigOperators.Field
import Mathlib.Algebra.BigOperators.Fin
import Mathlib.Algebra.Group.End
import Mathlib.Tactic.Ring
import Mathlib.Tactic.FieldSimp
import Mathlib.Tactic.LinearCombination

/-!
# Moments of random samples

Both kinds of sampling are treated at once: `θ = 1` without replacement, `θ = 0` with replacement.
-/

set_option linter.unusedSectionVars false

namespace FF

open Spec

variable {K : Type} [Field K] [LinearOrder K] [IsStrictOrderedRing K]

section Average

variable {Ω : Type} [Fintype Ω]

theorem average_add (f g : Ω → K) : average (fun ω => f ω + g ω) = average f + average g := by
  unfold average; rw [Finset.sum_add_distrib, add_div]

theorem average_mul (c : K) (f : Ω → K) : average (fun ω => c * f ω) = c * average f := by
  unfold average; rw [← Finset.mul_sum, mul_div_assoc]

theorem average_sub (f g : Ω → K) : average (fun ω => f ω - g ω) = average f - average g := by
  unfold average; rw [Finset.sum_sub_distrib, sub_div]

theorem average_sum {ι : Type} (s : Finset ι) (f : ι → Ω → K) :
    average (fun ω => ∑ i ∈ s, f i ω) = ∑ i ∈ s, average (f i) := by
  unfold average; rw [Finset.sum_comm, Finset.sum_div]

theorem average_const [Nonempty Ω] (c : K) : average (fun _ : Ω => c) = c := by
  unfold average
  rw [Finset.sum_const, Finset.card_univ, nsmul_eq_mul]
  have : (Fintype.card Ω : K) ≠ 0 := by exact_mod_cast Fintype.card_ne_zero
  field_simp

/-- The position drawn next is uniform among those still available, given the positions drawn before. -/
def Fair {n N : Nat} (θ : K) (pos : Ω → Fin n → Fin N) : Prop :=
  ∀ (S : Finset (Fin n)) (Φ : (Fin n → Fin N) → K) (b : Fin N → K) (j : Fin n), j ∉ S →
    (∀ s s' : Fin n → Fin N, (∀ i ∈ S, s i = s' i) → Φ s = Φ s') →
    ((N : K) - θ * (S.card : K)) * average (fun ω => Φ (pos ω) * b (pos ω j))
      = average (fun ω => Φ (pos ω) * (∑ u, b u - θ * ∑ i ∈ S, b (pos ω i)))

end Average

/-! ### The two ways of sampling are fair -/

theorem fair_without {n N : Nat} (h : n ≤ N) :
    Fair (1 : K) (fun (σ : Equiv.Perm (Fin N)) (i : Fin n) => σ (Fin.castLE h i)) := by
  intro S Φ b j hj hΦ
  have hcast := Fin.castLE_injective h
  set S' : Finset (Fin N) := S.map ⟨Fin.castLE h, hcast⟩ with hS'
  have hcard : S'.card = S.card := Finset.card_map _
  have hj' : Fin.castLE h j ∉ S' := by
    rw [hS', Finset.mem_map]
    rintro ⟨x, hx, hxe⟩
    exact hj (hcast hxe ▸ hx)
  have hsame : ∀ j' ∈ S'ᶜ, average (fun σ : Equiv.Perm (Fin N) => Φ (fun i => σ (Fin.castLE h i)) * b (σ j'))
      = average (fun σ : Equiv.Perm (Fin N) => Φ (fun i => σ (Fin.castLE h i)) * b (σ (Fin.castLE h j))) := by
    intro j' hj''
    unfold average
    congr 1
    refine Fintype.sum_equiv (Equiv.mulRight (Equiv.swap j' (Fin.castLE h j))) _ _ (fun σ => ?_)
    simp only [Equiv.coe_mulRight, Equiv.Perm.mul_apply, Equiv.swap_apply_right]
    congr 1
    apply hΦ
    intro i hi
    have hi' : Fin.castLE h i ∈ S' := by rw [hS', Finset.mem_map]; exact ⟨i, hi, rfl⟩
    rw [Equiv.swap_apply_of_ne_of_ne]
    · rintro rfl
      exact (Finset.mem_compl.1 hj'') hi'
    · intro he
      rw [he] at hi'
      exact hj' hi'
  have hsum := average_sum (K := K) S'ᶜ (fun j' (σ : Equiv.Perm (Fin N)) => Φ (fun i => σ (Fin.castLE h i)) * b (σ j'))
  rw [Finset.sum_congr rfl hsame, Finset.sum_const, Finset.card_compl, Fintype.card_fin, nsmul_eq_mul, hcard,
    Nat.cast_sub (by rw [← hcard]; exact (Finset.card_le_univ S').trans (by simp))] at hsum
  rw [one_mul, ← hsum]
  congr 1
  funext σ
  rw [← Finset.mul_sum]
  congr 1
  have h1 : ∑ u, b u = ∑ i, b (σ i) := (Equiv.sum_comp σ b).symm
  rw [h1, ← Finset.sum_add_sum_compl S', hS', Finset.sum_map]
  simp only [Function.Embedding.coeFn_mk]
  ring

theorem fair_with (n N : Nat) : Fair (0 : K) (fun (s : Fin n → Fin N) => s) := by
  intro S Φ b j hj hΦ
  rw [zero_mul, sub_zero]
  simp only [zero_mul, sub_zero]
  unfold average
  rw [← mul_div_assoc]
  congr 1
  have e : (N : K) * ∑ s : Fin n → Fin N, Φ s * b (s j) = ∑ q : (Fin n → Fin N) × Fin N, Φ q.1 * b (q.1 j) := by
    rw [Fintype.sum_prod_type, Finset.mul_sum]
    refine Finset.sum_congr rfl (fun s _ => ?_)
    dsimp only
    rw [Finset.sum_const, Finset.card_univ, Fintype.card_fin, nsmul_eq_mul]
  rw [e]
  have e2 : ∑ s : Fin n → Fin N, Φ s * ∑ u, b u = ∑ q : (Fin n → Fin N) × Fin N, Φ q.1 * b q.2 := by
    rw [Fintype.sum_prod_type]
    exact Finset.sum_congr rfl (fun s _ => Finset.mul_sum _ _ _)
  rw [e2]
  have hinv : Function.Involutive (fun q : (Fin n → Fin N) × Fin N => (Function.update q.1 j q.2, q.1 j)) := by
    intro q
    simp
  refine Fintype.sum_equiv hinv.toPerm _ _ (fun q => ?_)
  simp only [Function.Involutive.coe_toPerm]
  congr 1
  apply hΦ
  intro i hi
  rw [Function.update_of_ne]
  rintro rfl
  exact hj hi

/-! ### Joint moments of centred values -/

/-- The joint moments of order two. -/
structure Moments2 {Ω : Type} [Fintype Ω] {n : Nat} (X : Fin n → Ω → K) (m2 m11 : K) : Prop where
  h2 : ∀ i, average (fun ω => X i ω ^ 2) = m2
  h11 : ∀ i j, i ≠ j → average (fun ω => X i ω * X j ω) = m11

/-- The joint moments of order four of the values at distinct positions. -/
structure Moments4 {Ω : Type} [Fintype Ω] {n : Nat} (X : Fin n → Ω → K) (m4 m22 m31 m211 m1111 : K) : Prop where
  h4 : ∀ i, average (fun ω => X i ω ^ 4) = m4
  h22 : ∀ i j, i ≠ j → average (fun ω => X i ω ^ 2 * X j ω ^ 2) = m22
  h31 : ∀ i j, i ≠ j → average (fun ω => X i ω ^ 3 * X j ω) = m31
  h211 : ∀ i j k, i ≠ j → i ≠ k → j ≠ k → average (fun ω => X i ω ^ 2 * X j ω * X k ω) = m211
  h1111 : ∀ i j k l, i ≠ j → i ≠ k → i ≠ l → j ≠ k → j ≠ l → k ≠ l →
    average (fun ω => X i ω * X j ω * X k ω * X l ω) = m1111

section Fair

variable {Ω : Type} [Fintype Ω] {n N : Nat} {θ : K} {pos : Ω → Fin n → Fin N}

theorem Fair.one (hf : Fair θ pos) (b : Fin N → K) (i : Fin n) :
    (N : K) * average (fun ω => b (pos ω i)) = average (fun _ : Ω => ∑ u, b u) := by
  have h := hf ∅ (fun _ => 1) b i (Finset.notMem_empty i) (fun _ _ _ => rfl)
  simpa using h

theorem Fair.two (hf : Fair θ pos) (c b : Fin N → K) (i j : Fin n) (hij : i ≠ j) :
    ((N : K) - θ) * average (fun ω => c (pos ω i) * b (pos ω j))
      = average (fun ω => c (pos ω i) * (∑ u, b u - θ * b (pos ω i))) := by
  have h := hf {i} (fun s => c (s i)) b j (by simpa using hij.symm) (fun s s' hs => by rw [hs i (by simp)])
  simpa using h

theorem Fair.three (hf : Fair θ pos) (c d b : Fin N → K) (i j k : Fin n) (hij : i ≠ j) (hik : i ≠ k) (hjk : j ≠ k) :
    ((N : K) - θ * 2) * average (fun ω => c (pos ω i) * d (pos ω j) * b (pos ω k))
      = average (fun ω => c (pos ω i) * d (pos ω j) * (∑ u, b u - θ * (b (pos ω i) + b (pos ω j)))) := by
  have h := hf {i, j} (fun s => c (s i) * d (s j)) b k (by simp [hik.symm, hjk.symm])
    (fun s s' hs => by rw [hs i (by simp), hs j (by simp)])
  rw [Finset.card_pair hij] at h
  simpa [Finset.sum_pair hij] using h

theorem Fair.four (hf : Fair θ pos) (c d e b : Fin N → K) (i j k l : Fin n) (hij : i ≠ j) (hik : i ≠ k) (hil : i ≠ l)
    (hjk : j ≠ k) (hjl : j ≠ l) (hkl : k ≠ l) :
    ((N : K) - θ * 3) * average (fun ω => c (pos ω i) * d (pos ω j) * e (pos ω k) * b (pos ω l))
      = average (fun ω => c (pos ω i) * d (pos ω j) * e (pos ω k)
          * (∑ u, b u - θ * (b (pos ω i) + b (pos ω j) + b (pos ω k)))) := by
  have h := hf {i, j, k} (fun s => c (s i) * d (s j) * e (s k)) b l (by simp [hil.symm, hjl.symm, hkl.symm])
    (fun s s' hs => by rw [hs i (by simp), hs j (by simp), hs k (by simp)])
  rw [Finset.card_eq_three.2 ⟨i, j, k, hij, hik, hjk, rfl⟩] at h
  have hs : ∀ F : Fin n → K, ∑ x ∈ ({i, j, k} : Finset (Fin n)), F x = F i + F j + F k := by
    intro F
    rw [Finset.sum_insert (by simp [hij, hik]), Finset.sum_pair hjk, add_assoc]
  simp only [hs] at h
  simpa using h

theorem Fair.mean_one [Nonempty Ω] (hf : Fair θ pos) (hN : (N : K) ≠ 0) (b : Fin N → K) (i : Fin n) :
    average (fun ω => b (pos ω i)) = (∑ u, b u) / (N : K) := by
  have h := hf.one b i
  rw [average_const] at h
  rw [eq_div_iff hN, mul_comm, h]

theorem Fair.moments2 [Nonempty Ω] (hf : Fair θ pos) (hN : (N : K) ≠ 0) (hN1 : (N : K) - θ ≠ 0) (a : Fin N → K)
    (h0 : ∑ u, a u = 0) :
    Moments2 (fun i ω => a (pos ω i)) ((∑ u, a u ^ 2) / (N : K)) (-θ * ((∑ u, a u ^ 2) / (N : K)) / ((N : K) - θ)) := by
  refine ⟨fun i => hf.mean_one hN (fun u => a u ^ 2) i, fun i j hij => ?_⟩
  rw [eq_div_iff hN1, mul_comm, hf.two a a i j hij, h0, ← hf.mean_one hN (fun u => a u ^ 2) i, ← average_mul]
  congr 1
  funext ω
  ring

theorem Fair.moments4 [Nonempty Ω] (hf : Fair θ pos) (hN : (N : K) ≠ 0) (hN1 : (N : K) - θ ≠ 0) (hN2 : (N : K) - θ * 2 ≠ 0)
    (hN3 : (N : K) - θ * 3 ≠ 0) (a : Fin N → K) (h0 : ∑ u, a u = 0) {p2 p4 m22 m31 m211 m1111 : K}
    (hp2 : p2 = ∑ u, a u ^ 2) (hp4 : p4 = ∑ u, a u ^ 4)
    (h22 : m22 = (p2 * (p2 / (N : K)) - θ * (p4 / (N : K))) / ((N : K) - θ))
    (h31 : m31 = -θ * (p4 / (N : K)) / ((N : K) - θ))
    (h211 : m211 = -θ * (m31 + m22) / ((N : K) - θ * 2))
    (h1111 : m1111 = -θ * (3 * m211) / ((N : K) - θ * 3)) :
    Moments4 (fun i ω => a (pos ω i)) (p4 / (N : K)) m22 m31 m211 m1111 := by
  have e4 : ∀ i, average (fun ω => a (pos ω i) ^ 4) = p4 / (N : K) := fun i => by
    rw [hp4]; exact hf.mean_one hN (fun u => a u ^ 4) i
  have e2 : ∀ i, average (fun ω => a (pos ω i) ^ 2) = p2 / (N : K) := fun i => by
    rw [hp2]; exact hf.mean_one hN (fun u => a u ^ 2) i
  have e22 : ∀ i j, i ≠ j → average (fun ω => a (pos ω i) ^ 2 * a (pos ω j) ^ 2) = m22 := by
    intro i j hij
    rw [h22, eq_div_iff hN1, mul_comm, hf.two (fun u => a u ^ 2) (fun u => a u ^ 2) i j hij, ← hp2, ← e2 i, ← e4 i,
      ← average_mul, ← average_mul, ← average_sub]
    congr 1
    funext ω
    ring
  have e31 : ∀ i j, i ≠ j → average (fun ω => a (pos ω i) ^ 3 * a (pos ω j)) = m31 := by
    intro i j hij
    rw [h31, eq_div_iff hN1, mul_comm, hf.two (fun u => a u ^ 3) a i j hij, h0, ← e4 i, ← average_mul]
    congr 1
    funext ω
    ring
  have e211 : ∀ i j k, i ≠ j → i ≠ k → j ≠ k → average (fun ω => a (pos ω i) ^ 2 * a (pos ω j) * a (pos ω k)) = m211 := by
    intro i j k hij hik hjk
    rw [h211, eq_div_iff hN2, mul_comm, hf.three (fun u => a u ^ 2) a a i j k hij hik hjk, h0, ← e31 i j hij, ← e22 i j hij,
      ← average_add, ← average_mul]
    congr 1
    funext ω
    ring
  refine ⟨e4, e22, e31, e211, fun i j k l hij hik hil hjk hjl hkl => ?_⟩
  have e3 : 3 * m211 = average (fun ω => a (pos ω i) ^ 2 * a (pos ω j) * a (pos ω k)
      + a (pos ω j) ^ 2 * a (pos ω i) * a (pos ω k) + a (pos ω k) ^ 2 * a (pos ω i) * a (pos ω j)) := by
    rw [average_add, average_add, e211 i j k hij hik hjk, e211 j i k hij.symm hjk hik, e211 k i j hik.symm hjk.symm hij]
    ring
  rw [h1111, eq_div_iff hN3, mul_comm, hf.four a a a a i j k l hij hik hil hjk hjl hkl, h0, e3, ← average_mul]
  congr 1
  funext ω
  ring

end Fair

/-! ### Moments of sums -/

section Sums

variable {Ω : Type} [Fintype Ω] {n : Nat} {X : Fin n → Ω → K} {m2 m11 m4 m22 m31 m211 m1111 : K}

/-- Sum of a quantity over pairs that depends only on whether the two are equal. -/
theorem sum_pairs (f : Fin n → Fin n → K) (d o : K) (hd : ∀ i, f i i = d) (ho : ∀ i j, i ≠ j → f i j = o) :
    ∑ i, ∑ j, f i j = (n : K) * d + (n : K) * ((n : K) - 1) * o := by
  have : ∀ i j, f i j = o + (d - o) * (if i = j then 1 else 0) := by
    intro i j
    by_cases h : i = j
    · subst h; rw [hd, if_pos rfl]; ring
    · rw [ho i j h, if_neg h]; ring
  simp only [this, Finset.sum_add_distrib, Finset.sum_const, Finset.card_univ, Fintype.card_fin, nsmul_eq_mul, ← Finset.mul_sum,
    Finset.sum_ite_eq, Finset.mem_univ, if_true, mul_one]
  ring

theorem Moments2.sq_sum (h : Moments2 X m2 m11) :
    average (fun ω => (∑ i, X i ω) ^ 2) = (n : K) * m2 + (n : K) * ((n : K) - 1) * m11 := by
  have e : (fun ω => (∑ i, X i ω) ^ 2) = fun ω => ∑ i, ∑ j, X i ω * X j ω := by
    funext ω
    rw [pow_two, Finset.sum_mul_sum]
  rw [e, average_sum]
  simp only [average_sum]
  refine sum_pairs _ _ _ (fun i => ?_) h.h11
  rw [← h.h2 i]
  congr 1
  funext ω
  ring

theorem Moments2.sum_sq (h : Moments2 X m2 m11) : average (fun ω => ∑ i, X i ω ^ 2) = (n : K) * m2 := by
  rw [average_sum, Finset.sum_congr rfl (fun i _ => h.h2 i)]
  simp

theorem Moments4.aa (h : Moments4 X m4 m22 m31 m211 m1111) :
    average (fun ω => (∑ i, X i ω ^ 2) ^ 2) = (n : K) * m4 + (n : K) * ((n : K) - 1) * m22 := by
  have e : (fun ω => (∑ i, X i ω ^ 2) ^ 2) = fun ω => ∑ i, ∑ j, X i ω ^ 2 * X j ω ^ 2 := by
    funext ω
    rw [pow_two, Finset.sum_mul_sum]
  rw [e, average_sum]
  simp only [average_sum]
  refine sum_pairs _ _ _ (fun i => ?_) h.h22
  rw [← h.h4 i]
  congr 1
  funext ω
  ring

/-- Sum over triples `(i, j, k)`, symmetric in `j` and `k`. -/
theorem sum_triples (f : Fin n → Fin n → Fin n → K) (q u v w : K) (hq : ∀ i, f i i i = q)
    (hu : ∀ i j, i ≠ j → f i j j = u) (hv1 : ∀ i k, i ≠ k → f i i k = v) (hv2 : ∀ i j, i ≠ j → f i j i = v)
    (hw : ∀ i j k, i ≠ j → i ≠ k → j ≠ k → f i j k = w) :
    ∑ i, ∑ j, ∑ k, f i j k = (n : K) * q + (n : K) * ((n : K) - 1) * (u + 2 * v)
      + (n : K) * ((n : K) - 1) * ((n : K) - 2) * w := by
  have : ∀ i j k, f i j k = w + (u - w) * (if j = k then 1 else 0) + (v - w) * (if i = j then 1 else 0)
      + (v - w) * (if i = k then 1 else 0) + (q - u - 2 * v + 2 * w) * (if i = j then (if i = k then 1 else 0) else 0) := by
    intro i j k
    by_cases h1 : i = j
    · subst h1
      by_cases h2 : i = k
      · subst h2; simp only [hq, if_true]; ring
      · rw [hv1 i k h2]; simp only [h2, if_true, if_false]; ring
    · by_cases h2 : i = k
      · subst h2
        rw [hv2 i j h1]; simp only [h1, Ne.symm h1, if_true, if_false]; ring
      · by_cases h3 : j = k
        · subst h3; rw [hu i j h1]; simp only [h1, if_true, if_false]; ring
        · rw [hw i j k h1 h2 h3]; simp only [h1, h2, h3, if_false]; ring
  have s1 : ∀ i : Fin n, ∑ j : Fin n, ∑ k : Fin n, (if i = j then (if i = k then (1 : K) else 0) else 0) = 1 := by
    intro i
    rw [Finset.sum_eq_single i (fun j _ hj => by simp [Ne.symm hj]) (by simp)]
    simp
  simp only [this, Finset.sum_add_distrib, Finset.sum_const, Finset.card_univ, Fintype.card_fin, nsmul_eq_mul, ← Finset.mul_sum,
    Finset.sum_ite_eq, Finset.mem_univ, if_true, mul_one, s1]
  ring

theorem Moments4.abb (h : Moments4 X m4 m22 m31 m211 m1111) :
    average (fun ω => (∑ i, X i ω ^ 2) * (∑ i, X i ω) ^ 2)
      = (n : K) * m4 + (n : K) * ((n : K) - 1) * (m22 + 2 * m31) + (n : K) * ((n : K) - 1) * ((n : K) - 2) * m211 := by
  have e : (fun ω => (∑ i, X i ω ^ 2) * (∑ i, X i ω) ^ 2) = fun ω => ∑ i, ∑ j, ∑ k, X i ω ^ 2 * X j ω * X k ω := by
    funext ω
    rw [pow_two (∑ i, X i ω), ← mul_assoc, Finset.sum_mul_sum, Finset.sum_mul]
    refine Finset.sum_congr rfl (fun i _ => ?_)
    rw [Finset.sum_mul_sum]
  rw [e, average_sum]
  simp only [average_sum]
  refine sum_triples _ _ _ _ _ (fun i => ?_) (fun i j hij => ?_) (fun i k hik => ?_) (fun i j hij => ?_) h.h211
  · rw [← h.h4 i]; congr 1; funext ω; ring
  · rw [← h.h22 i j hij]; congr 1; funext ω; ring
  · rw [← h.h31 i k hik]; congr 1; funext ω; ring
  · rw [← h.h31 i j hij]; congr 1; funext ω; ring

/-- Sum of a symmetric quantity over quadruples. -/
theorem sum_quads (f : Fin n → Fin n → Fin n → Fin n → K) (q t p v u : K)
    (s1 : ∀ i j k l, f i j k l = f j i k l) (s2 : ∀ i j k l, f i j k l = f i k j l) (s3 : ∀ i j k l, f i j k l = f i j l k)
    (hq : ∀ i, f i i i i = q) (ht : ∀ i j, i ≠ j → f i i i j = t) (hp : ∀ i j, i ≠ j → f i i j j = p)
    (hv : ∀ i j k, i ≠ j → i ≠ k → j ≠ k → f i i j k = v)
    (hu : ∀ i j k l, i ≠ j → i ≠ k → i ≠ l → j ≠ k → j ≠ l → k ≠ l → f i j k l = u) :
    ∑ i, ∑ j, ∑ k, ∑ l, f i j k l = (n : K) * q + (n : K) * ((n : K) - 1) * (3 * p + 4 * t)
      + 6 * ((n : K) * ((n : K) - 1) * ((n : K) - 2)) * v
      + (n : K) * ((n : K) - 1) * ((n : K) - 2) * ((n : K) - 3) * u := by
  have hrow : ∀ i j k, ∑ l, f i j k l
      = if i = j then (if i = k then q + ((n : K) - 1) * t else p + t + ((n : K) - 2) * v)
        else if i = k then p + t + ((n : K) - 2) * v
        else if j = k then p + t + ((n : K) - 2) * v
        else 3 * v + ((n : K) - 3) * u := by
    have one : ∀ (i : Fin n) (g : Fin n → K) (x y : K), g i = x → (∀ l, l ≠ i → g l = y) →
        ∑ l, g l = x + ((n : K) - 1) * y := by
      intro i g x y hx hy
      have : ∀ l, g l = y + (x - y) * (if i = l then 1 else 0) := by
        intro l
        by_cases h : i = l
        · subst h; rw [hx, if_pos rfl]; ring
        · rw [hy l (Ne.symm h), if_neg h]; ring
      simp only [this, Finset.sum_add_distrib, Finset.sum_const, Finset.card_univ, Fintype.card_fin, nsmul_eq_mul,
        ← Finset.mul_sum, Finset.sum_ite_eq, Finset.mem_univ, if_true, mul_one]
      ring
    have two : ∀ (i k : Fin n) (g : Fin n → K) (x y z : K), i ≠ k → g i = x → g k = y → (∀ l, l ≠ i → l ≠ k → g l = z) →
        ∑ l, g l = x + y + ((n : K) - 2) * z := by
      intro i k g x y z hik hx hy hz
      have : ∀ l, g l = z + (x - z) * (if i = l then 1 else 0) + (y - z) * (if k = l then 1 else 0) := by
        intro l
        by_cases h : i = l
        · subst h; rw [hx, if_pos rfl, if_neg hik.symm]; ring
        · by_cases h' : k = l
          · subst h'; rw [hy, if_pos rfl, if_neg h]; ring
          · rw [hz l (Ne.symm h) (Ne.symm h'), if_neg h, if_neg h']; ring
      simp only [this, Finset.sum_add_distrib, Finset.sum_const, Finset.card_univ, Fintype.card_fin, nsmul_eq_mul,
        ← Finset.mul_sum, Finset.sum_ite_eq, Finset.mem_univ, if_true, mul_one]
      ring
    have three : ∀ (i j k : Fin n) (g : Fin n → K) (x z : K), i ≠ j → i ≠ k → j ≠ k → g i = x → g j = x → g k = x →
        (∀ l, l ≠ i → l ≠ j → l ≠ k → g l = z) → ∑ l, g l = 3 * x + ((n : K) - 3) * z := by
      intro i j k g x z hij hik hjk hi hj hk hz
      have : ∀ l, g l = z + (x - z) * (if i = l then 1 else 0) + (x - z) * (if j = l then 1 else 0)
          + (x - z) * (if k = l then 1 else 0) := by
        intro l
        by_cases h : i = l
        · subst h; rw [hi, if_pos rfl, if_neg hij.symm, if_neg hik.symm]; ring
        · by_cases h' : j = l
          · subst h'; rw [hj, if_pos rfl, if_neg h, if_neg hjk.symm]; ring
          · by_cases h'' : k = l
            · subst h''; rw [hk, if_pos rfl, if_neg h, if_neg h']; ring
            · rw [hz l (Ne.symm h) (Ne.symm h') (Ne.symm h''), if_neg h, if_neg h', if_neg h'']; ring
      simp only [this, Finset.sum_add_distrib, Finset.sum_const, Finset.card_univ, Fintype.card_fin, nsmul_eq_mul,
        ← Finset.mul_sum, Finset.sum_ite_eq, Finset.mem_univ, if_true, mul_one]
      ring
    have pair : ∀ i k, i ≠ k → ∑ l, f i i k l = p + t + ((n : K) - 2) * v := by
      intro i k hik
      rw [add_comm p t]
      refine two i k _ _ _ _ hik ?_ (hp i k hik) (fun l hi hk => hv i k l hik (Ne.symm hi) (Ne.symm hk))
      rw [s3]; exact ht i k hik
    intro i j k
    by_cases h1 : i = j
    · subst h1
      by_cases h2 : i = k
      · subst h2
        rw [if_pos rfl, if_pos rfl]
        exact one i _ _ _ (hq i) (fun l hl => ht i l (Ne.symm hl))
      · rw [if_pos rfl, if_neg h2]
        exact pair i k h2
    · rw [if_neg h1]
      by_cases h2 : i = k
      · subst h2
        rw [if_pos rfl, ← pair i j h1]
        exact Finset.sum_congr rfl (fun l _ => s2 i j i l)
      · rw [if_neg h2]
        by_cases h3 : j = k
        · subst h3
          rw [if_pos rfl, ← pair j i (Ne.symm h1)]
          exact Finset.sum_congr rfl (fun l _ => by rw [s1, s2])
        · rw [if_neg h3]
          refine three i j k _ _ _ h1 h2 h3 ?_ ?_ ?_ (fun l ha hb hc => hu i j k l h1 h2 (Ne.symm ha) h3 (Ne.symm hb) (Ne.symm hc))
          · rw [s3 i j k i, s2 i j i k]; exact hv i j k h1 h2 h3
          · rw [s1 i j k j, s3 j i k j, s2 j i j k]; exact hv j i k (Ne.symm h1) h3 h2
          · rw [s2 i j k k, s1 i k j k, s3 k i j k, s2 k i k j]; exact hv k i j (Ne.symm h2) (Ne.symm h3) h1
  simp only [hrow]
  refine (sum_triples _ (q + ((n : K) - 1) * t) (p + t + ((n : K) - 2) * v) (p + t + ((n : K) - 2) * v)
    (3 * v + ((n : K) - 3) * u) (fun i => by simp) (fun i j h => by simp [h]) (fun i k h => by simp [h])
    (fun i j h => by simp [h, h.symm]) (fun i j k h1 h2 h3 => by simp [h1, h2, h3])).trans ?_
  ring

theorem Moments4.bbbb (h : Moments4 X m4 m22 m31 m211 m1111) :
    average (fun ω => (∑ i, X i ω) ^ 4)
      = (n : K) * m4 + (n : K) * ((n : K) - 1) * (3 * m22 + 4 * m31)
      + 6 * ((n : K) * ((n : K) - 1) * ((n : K) - 2)) * m211
      + (n : K) * ((n : K) - 1) * ((n : K) - 2) * ((n : K) - 3) * m1111 := by
  have e : (fun ω => (∑ i, X i ω) ^ 4) = fun ω => ∑ i, ∑ j, ∑ k, ∑ l, X i ω * X j ω * X k ω * X l ω := by
    funext ω
    rw [show (∑ i, X i ω) ^ 4 = (∑ i, X i ω) * (∑ i, X i ω) * (∑ i, X i ω) * (∑ i, X i ω) by ring]
    simp only [← Finset.mul_sum, ← Finset.sum_mul]
  rw [e, average_sum]
  simp only [average_sum]
  refine sum_quads _ _ _ _ _ _ (fun i j k l => ?_) (fun i j k l => ?_) (fun i j k l => ?_) (fun i => ?_) (fun i j hij => ?_)
    (fun i j hij => ?_) (fun i j k h1 h2 h3 => ?_) h.h1111
  · congr 1; funext ω; ring
  · congr 1; funext ω; ring
  · congr 1; funext ω; ring
  · rw [← h.h4 i]; congr 1; funext ω; ring
  · rw [← h.h31 i j hij]; congr 1; funext ω; ring
  · rw [← h.h22 i j hij]; congr 1; funext ω; ring
  · rw [← h.h211 i j k h1 h2 h3]; congr 1; funext ω; ring

end Sums

end FF
