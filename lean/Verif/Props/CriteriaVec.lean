import Verif.Model.CriteriaVec
import Verif.Model.Instances
import Verif.Proofs.Reductions
import Verif.Proofs.Mdi
import Verif.Proofs.Sample

/-!
# The vectorised impurity reductions (C92)
-/

set_option linter.unusedSectionVars false

namespace FF

open Spec

variable {K : Type} [Field K] [LinearOrder K] [IsStrictOrderedRing K] [FloorRing K] [NpFun K] {G : Type}

theorem XF.mul_comm' (a b : XF K) : a.mul b = b.mul a := by
  cases a <;> cases b <;> simp [XF.mul, mul_comm]

/-- The value of a computation that succeeded. -/
def okOr {β : Type} (d : β) : Except Err β → β
  | .ok v => v
  | .error _ => d

theorem okOr_eq {β : Type} {d v : β} {x : Except Err β} (h : x = .ok v) : x = .ok (okOr d x) := by
  rw [h]; rfl

theorem mapE_ok {α β : Type} {f : α → Except Err β} {l : List α} {g : α → β} (h : ∀ x ∈ l, f x = .ok (g x)) :
    mapE f l = .ok (l.map g) := by
  induction l with
  | nil => rfl
  | cons x xs ih =>
    unfold mapE
    rw [h x (by simp), ih (fun y hy => h y (by simp [hy]))]
    rfl

/-- The weighted terms of an edge, from the sizes and the two impurities. -/
def weighted (n x y : Nat) (l r : XF K × XF K) : (XF K × XF K) × (XF K × XF K) :=
  let wl : XF K := .fin ((x : K) / (n : K))
  let wr : XF K := .fin ((y : K) / (n : K))
  ((wl.mul l.1, (wl.mul wl).mul l.2), (wr.mul r.1, (wr.mul wr).mul r.2))

theorem combineVec_eq {n x y : Nat} (h : x + y = n) (hn : n ≠ 0) (l r c : XF K × XF K) :
    combineVec x y l r c = combineEdge c.1 c.2 (weighted n x y l r) := by
  have hK : (n : K) ≠ 0 := by exact_mod_cast hn
  unfold combineVec combineEdge weighted
  rw [h]
  simp only [xnat, XF.div_fin _ _ hK]
  rw [XF.mul_comm' l.1, XF.mul_comm' r.1, XF.mul_comm' l.2, XF.mul_comm' r.2, XF.add_assoc', XF.add_comm' c.2]

theorem edgeTerms_inv {f : Bool → Nat → Option Nat → Except Err (XF K × XF K)} {ls rs n : Nat} {pop : Option Nat}
    {t : (XF K × XF K) × (XF K × XF K)} (h : edgeTerms f ls rs n pop = .ok t) :
    n ≠ 0 ∧ ∃ l r, f true ls (pop.map (fun s => ls * s / n)) = .ok l ∧ f false rs (pop.map (fun s => rs * s / n)) = .ok r ∧
      t = weighted n ls rs l r := by
  unfold edgeTerms at h
  split_ifs at h with hn
  simp only [] at h
  split at h
  · cases h
  · rename_i il vl h1
    split at h
    · cases h
    · rename_i ir vr h2
      cases h
      exact ⟨hn, _, _, h1, h2, rfl⟩

theorem edgeLoop_inv {f : Nat → Bool → Nat → Option Nat → Except Err (XF K × XF K)} {x y : Nat → Nat}
    {sums : Nat → Option (Nat × Nat)} {n : Nat} {pop : Option Nat} (hs : ∀ b p, sums b = some p → p = (x b, y b)) :
    ∀ {bins : List Nat} {ts : List ((XF K × XF K) × (XF K × XF K))}, edgeLoop f sums n pop bins = .ok ts →
      (bins ≠ [] → n ≠ 0) ∧ (∀ b ∈ bins, sums b = some (x b, y b)) ∧ ∃ VL VR : Nat → XF K × XF K, (∀ b ∈ bins,
        f b true (x b) (pop.map (fun s => x b * s / n)) = .ok (VL b) ∧ f b false (y b) (pop.map (fun s => y b * s / n)) = .ok (VR b)) ∧
      ts = bins.map (fun b => weighted n (x b) (y b) (VL b) (VR b)) := by
  intro bins ts h
  refine (?_ : (bins ≠ [] → n ≠ 0) ∧ (∀ b ∈ bins, sums b = some (x b, y b)) ∧ (∀ b ∈ bins,
    f b true (x b) (pop.map (fun s => x b * s / n)) = .ok (okOr (.nan, .nan) (f b true (x b) (pop.map (fun s => x b * s / n)))) ∧
      f b false (y b) (pop.map (fun s => y b * s / n)) = .ok (okOr (.nan, .nan) (f b false (y b) (pop.map (fun s => y b * s / n))))) ∧
    ts = bins.map (fun b => weighted n (x b) (y b) (okOr (.nan, .nan) (f b true (x b) (pop.map (fun s => x b * s / n))))
      (okOr (.nan, .nan) (f b false (y b) (pop.map (fun s => y b * s / n))))) → _) ?_
  · rintro ⟨h1, h2, h3, h4⟩
    exact ⟨h1, h2, _, _, h3, h4⟩
  induction bins generalizing ts with
  | nil => cases h; simp
  | cons b bs ih =>
    unfold edgeLoop at h
    split at h
    · cases h
    rename_i ls rs hb
    obtain ⟨rfl, rfl⟩ := Prod.mk.inj (hs b _ hb)
    split at h
    · cases h
    rename_i t ht
    split at h
    · cases h
    rename_i ts' hts
    cases h
    obtain ⟨i1, i2, i3, i4⟩ := ih hts
    obtain ⟨hn, l, r, e1, e2, rfl⟩ := edgeTerms_inv ht
    refine ⟨fun _ => hn, ?_, ?_, ?_⟩
    · rw [List.forall_mem_cons]; exact ⟨hb, i2⟩
    · rw [List.forall_mem_cons]; exact ⟨⟨okOr_eq e1, okOr_eq e2⟩, i3⟩
    · rw [List.map_cons, ← i4, e1, e2]; rfl

theorem sidesVec_eq {α : Type} {size : α → Nat} {side : List (α × Option Nat) → Except Err (List (XF K × XF K))}
    {curr : Except Err (XF K × XF K)} {c : XF K × XF K} {L Rt : Nat → α} {bins : List Nat} {n : Nat} {pop : Option Nat}
    {VL VR : Nat → XF K × XF K} (hn : ∀ b ∈ bins, size (L b) + size (Rt b) = n) (hn0 : bins ≠ [] → n ≠ 0)
    (hl : side (bins.map (fun b => (L b, pop.map (fun s => size (L b) * s / n)))) = .ok (bins.map VL))
    (hr : side (bins.map (fun b => (Rt b, pop.map (fun s => size (Rt b) * s / n)))) = .ok (bins.map VR)) (hc : curr = .ok c) :
    sidesVec size side curr (bins.map L) (bins.map Rt) pop =
      .ok ((bins.map (fun b => weighted n (size (L b)) (size (Rt b)) (VL b) (VR b))).map (combineEdge c.1 c.2)) := by
  unfold sidesVec
  rw [List.zip_map']
  have hany : ¬ (pop.isSome ∧ (bins.map (fun b => (L b, Rt b))).any (fun q => decide (size q.1 + size q.2 = 0)) = true) := by
    rintro ⟨_, h⟩
    obtain ⟨q, hq, hz⟩ := List.any_eq_true.1 h
    obtain ⟨b, hb, rfl⟩ := List.mem_map.1 hq
    have := hn b hb
    have hz : size (L b) + size (Rt b) = 0 := by simpa using hz
    exact hn0 (List.ne_nil_of_mem hb) (by omega)
  rw [if_neg hany, List.map_map, List.map_map]
  have e1 : bins.map ((fun q : α × α => (q.1, pop.map (fun s => size q.1 * s / (size q.1 + size q.2)))) ∘ fun b => (L b, Rt b)) =
      bins.map (fun b => (L b, pop.map (fun s => size (L b) * s / n))) :=
    List.map_congr_left (fun b hb => by simp only [Function.comp]; rw [hn b hb])
  have e2 : bins.map ((fun q : α × α => (q.2, pop.map (fun s => size q.2 * s / (size q.1 + size q.2)))) ∘ fun b => (L b, Rt b)) =
      bins.map (fun b => (Rt b, pop.map (fun s => size (Rt b) * s / n))) :=
    List.map_congr_left (fun b hb => by simp only [Function.comp]; rw [hn b hb])
  rw [e1, e2, hl, hr, hc]
  simp only []
  rw [List.zip_map', List.zipWith_map, List.zipWith_self, List.map_map]
  congr 1
  apply List.map_congr_left
  intro b hb
  exact combineVec_eq (hn b hb) (hn0 (List.ne_nil_of_mem hb)) _ _ _

/-! ### Classification -/

theorem ClsRep.balance {h : Hist K} {edges : List K} {S : List (K × K)} (hr : ClsRep h edges S) (b : Nat) (hb : b < edges.length) :
    (h.left.getD b []).sum + (h.right.getD b []).sum = S.length ∧
      addRows (h.left.getD b []) (h.right.getD b []) = countsOf h.classes (S.map Prod.snd) := by
  rw [List.getD_eq_getElem?_getD, List.getD_eq_getElem?_getD, hr.rowL b hb, hr.rowR b hb]
  simp only [Option.getD_some]
  rw [sum_countsOf hr.nodup (hr.memLe _), sum_countsOf hr.nodup (hr.memGt _), length_labels, addRows_counts]
  exact ⟨rfl, rfl⟩

/-- What a successful run of the loop over the edges of a classification histogram computed. -/
theorem clsReductions_inv {h : Hist K} {edges : List K} {S : List (K × K)} (hr : ClsRep h edges S) {bins : List Nat} {m : Criterion}
    {pop : Option Nat} {l : List (XF K × XF K)} (hrun : clsReductions h bins m pop = .ok l) :
    S.length ≠ 0 ∧ bins ≠ [] ∧ (∀ b ∈ bins, b < edges.length) ∧ ∃ (VL VR : Nat → XF K × XF K) (c : XF K × XF K),
      (∀ b ∈ bins, clsImpurity m (h.left.getD b []) (h.left.getD b []).sum (pop.map (fun s => (h.left.getD b []).sum * s / S.length)) = .ok (VL b) ∧
        clsImpurity m (h.right.getD b []) (h.right.getD b []).sum (pop.map (fun s => (h.right.getD b []).sum * s / S.length)) = .ok (VR b)) ∧
      clsImpurity m (countsOf h.classes (S.map Prod.snd)) S.length pop = .ok c ∧
      l = (bins.map (fun b => weighted S.length (h.left.getD b []).sum (h.right.getD b []).sum (VL b) (VR b))).map (combineEdge c.1 c.2) := by
  unfold clsReductions at hrun
  split_ifs at hrun
  split at hrun
  swap
  · cases hrun
  rename_i l0 r0 hl0 hr0
  have h0 : 0 < edges.length := by
    rw [hr.good.1, ← hr.shapeL.1]
    exact (List.getElem?_eq_some_iff.1 hl0).1
  have b0 := hr.balance 0 h0
  rw [List.getD_eq_getElem?_getD, List.getD_eq_getElem?_getD, hl0, hr0] at b0
  simp only [Option.getD_some] at b0
  simp only [] at hrun
  rw [b0.1] at hrun
  split at hrun
  · cases hrun
  rename_i ts hts
  have hsums : ∀ b p, (match h.left[b]?, h.right[b]? with
      | some l, some r => some (l.sum, r.sum)
      | _, _ => none : Option (Nat × Nat)) = some p → b < edges.length ∧ p = ((h.left.getD b []).sum, (h.right.getD b []).sum) := by
    intro b p hp
    split at hp
    · rename_i l r e1 e2
      cases hp
      refine ⟨by rw [hr.good.1, ← hr.shapeL.1]; exact (List.getElem?_eq_some_iff.1 e1).1, ?_⟩
      rw [List.getD_eq_getElem?_getD, List.getD_eq_getElem?_getD, e1, e2]
      rfl
    · cases hp
  obtain ⟨g1, g2, VL, VR, g3, g4⟩ := edgeLoop_inv (x := fun b => (h.left.getD b []).sum) (y := fun b => (h.right.getD b []).sum)
    (fun b p hp => (hsums b p hp).2) hts
  split at hrun
  · cases hrun
  rename_i ls rs hlast
  obtain ⟨bl, hbl, hbs⟩ := Option.bind_eq_some_iff.1 hlast
  have hbm : bl ∈ bins := List.mem_of_getLast? hbl
  have hne : bins ≠ [] := List.ne_nil_of_mem hbm
  obtain ⟨hlt, hp⟩ := hsums bl _ hbs
  obtain ⟨rfl, rfl⟩ := Prod.mk.inj hp
  rw [(hr.balance bl hlt).1, b0.2] at hrun
  split at hrun
  · cases hrun
  rename_i ic vc hc
  cases hrun
  refine ⟨g1 hne, hne, fun b hb => (hsums b _ (g2 b hb)).1, VL, VR, (ic, vc), ?_, hc, ?_⟩
  · intro b hb
    have := g3 b hb
    simpa using this
  · rw [g4]

theorem length_of_sum {classes ys : List K} (hn : classes.Nodup) (hy : ∀ y ∈ ys, y ∈ classes) :
    (countsOf classes ys).sum = ys.length := sum_countsOf hn hy

/-- The vectorised computation on a classification histogram, given what it computes per side. -/
theorem vec_cls {h : Hist K} {edges : List K} {S : List (K × K)} (hr : ClsRep h edges S) {bins : List Nat} {m : Criterion}
    {pop : Option Nat} {VL VR : Nat → XF K × XF K} {c : XF K × XF K} (retVars : Bool) (hS : S.length ≠ 0) (hne : bins ≠ [])
    (hlt : ∀ b ∈ bins, b < edges.length)
    (hl : clsSideVec m (bins.map (fun b => (h.left.getD b [], pop.map (fun s => (h.left.getD b []).sum * s / S.length)))) = .ok (bins.map VL))
    (hr' : clsSideVec m (bins.map (fun b => (h.right.getD b [], pop.map (fun s => (h.right.getD b []).sum * s / S.length)))) = .ok (bins.map VR))
    (hc : clsImpurity m (countsOf h.classes (S.map Prod.snd)) S.length pop = .ok c) :
    getReductionsVec h bins m retVars pop = .ok (.both ((bins.map (fun b =>
      weighted S.length (h.left.getD b []).sum (h.right.getD b []).sum (VL b) (VR b))).map (combineEdge c.1 c.2))) := by
  unfold getReductionsVec
  rw [hr.isCls, if_pos rfl, takeE_of (fun i hi => by rw [hr.shapeL.1, ← hr.good.1]; exact hlt i hi),
    takeE_of (fun i hi => by rw [hr.shapeR.1, ← hr.good.1]; exact hlt i hi)]
  simp only []
  rw [sidesVec_eq (n := S.length) (c := c) (fun b hb => (hr.balance b (hlt b hb)).1) (fun _ => hS) hl hr']
  match bins, hne with
  | b :: bs, _ =>
    simp only [List.map_cons]
    rw [(hr.balance b (hlt b (by simp))).2, length_of_sum hr.nodup hr.memAll, List.length_map]
    exact hc

/-! ### The theorems -/

/-- A histogram as the code builds it: constructed, then filled with batches of samples, of which there is at least one. -/
def Filled (R : Rng K G) (isCls : Bool) (h : Hist K) : Prop :=
  ∃ (g g' : G) (f : Nat) (uf : Option (DiscVals K)) (fData classes : List K) (nb : Nat) (lo hi : K) (bt : BinType) (h0 : Hist K)
    (edges : List K) (Bs : List (List (List K) × List K)), BinArgs bt uf nb lo hi ∧ classes.Nodup ∧
    Hist.init R g isCls f uf fData classes nb lo hi bt = .ok (h0, g') ∧ h0.edges = some edges ∧ h0.addAll Bs = .ok h

theorem Filled.cls {R : Rng K G} {h : Hist K} (hf : Filled R true h) : ∃ edges S, ClsRep h edges S := by
  obtain ⟨g, g', f, uf, fData, classes, nb, lo, hi, bt, h0, edges, Bs, a, b, c, d, e⟩ := hf
  exact ⟨_, _, ((clsRep_of_init a b c d).addAll Bs e).1⟩

theorem Filled.reg {R : Rng K G} {h : Hist K} (hf : Filled R false h) : ∃ edges S, RegRep h edges S := by
  obtain ⟨g, g', f, uf, fData, classes, nb, lo, hi, bt, h0, edges, Bs, a, b, c, d, e⟩ := hf
  exact ⟨_, _, ((regRep_of_init a c d).addAll Bs e).1⟩

/-- C92 for the Gini criterion: whatever the loop returns, the vectorised branch returns too. -/
theorem C92_gini (R : Rng K G) (h : Hist K) (hf : Filled R true h) (bins : List Nat) (pop : Option Nat) (r : Reds K)
    (hrun : getReductions h bins .gini true pop = .ok r) : getReductionsVec h bins .gini true pop = .ok r := by
  obtain ⟨edges, S, hr⟩ := hf.cls
  unfold getReductions impurityReductions at hrun
  rw [hr.isCls, if_pos rfl] at hrun
  split at hrun
  · cases hrun
  rename_i l hl
  cases hrun
  obtain ⟨hS, hne, hlt, VL, VR, c, h1, hc, rfl⟩ := clsReductions_inv hr hl
  rw [vec_cls hr true hS hne hlt ?_ ?_ hc]
  · rfl
  · exact (mapE_ok (g := fun r => okOr (.nan, .nan) (getGini r.1 r.1.sum r.2)) (by
      intro x hx
      obtain ⟨b, hb, rfl⟩ := List.mem_map.1 hx
      exact okOr_eq (h1 b hb).1)).trans (by
        rw [List.map_map]
        congr 1
        apply List.map_congr_left
        intro b hb
        have := (h1 b hb).1
        simp only [clsImpurity] at this
        simp only [Function.comp, this]
        rfl)
  · exact (mapE_ok (g := fun r => okOr (.nan, .nan) (getGini r.1 r.1.sum r.2)) (by
      intro x hx
      obtain ⟨b, hb, rfl⟩ := List.mem_map.1 hx
      exact okOr_eq (h1 b hb).2)).trans (by
        rw [List.map_map]
        congr 1
        apply List.map_congr_left
        intro b hb
        have := (h1 b hb).2
        simp only [clsImpurity] at this
        simp only [Function.comp, this]
        rfl)

/-- C92 for regression: whatever the loop returns, the vectorised branch returns too. -/
theorem C92_mse (R : Rng K G) (h : Hist K) (hf : Filled R false h) (bins : List Nat) (pop : Option Nat) (r : Reds K)
    (hrun : getReductions h bins .mse true pop = .ok r) : getReductionsVec h bins .mse true pop = .ok r := by
  obtain ⟨edges, S, hr⟩ := hf.reg
  unfold getReductions impurityReductions at hrun
  rw [hr.isReg, if_neg (by simp)] at hrun
  split at hrun
  · cases hrun
  rename_i l hl
  cases hrun
  unfold regReductions at hl
  split_ifs at hl
  split at hl
  swap
  · cases hl
  rename_i l0 r0 hl0 hr0
  have bal : ∀ b, b < edges.length → (h.leftPile.getD b Pile.zero).n + (h.rightPile.getD b Pile.zero).n = S.length := by
    intro b hb
    rw [(hr.left b hb).n, (hr.right b hb).n, length_labels]
  have h0 : 0 < edges.length := by
    rw [hr.good.1, ← hr.lenL]
    exact (List.getElem?_eq_some_iff.1 hl0).1
  have b0 := bal 0 h0
  rw [List.getD_eq_getElem?_getD, List.getD_eq_getElem?_getD, hl0, hr0] at b0
  simp only [Option.getD_some] at b0
  simp only [] at hl
  rw [b0] at hl
  split at hl
  · cases hl
  rename_i ts hts
  have hsums : ∀ b p, (match h.leftPile[b]?, h.rightPile[b]? with
      | some l, some r => some (l.n, r.n)
      | _, _ => none : Option (Nat × Nat)) = some p →
        b < edges.length ∧ p = ((h.leftPile.getD b Pile.zero).n, (h.rightPile.getD b Pile.zero).n) := by
    intro b p hp
    split at hp
    · rename_i l r e1 e2
      cases hp
      refine ⟨by rw [hr.good.1, ← hr.lenL]; exact (List.getElem?_eq_some_iff.1 e1).1, ?_⟩
      rw [List.getD_eq_getElem?_getD, List.getD_eq_getElem?_getD, e1, e2]
      rfl
    · cases hp
  obtain ⟨g1, g2, VL, VR, g3, g4⟩ := edgeLoop_inv (x := fun b => (h.leftPile.getD b Pile.zero).n)
    (y := fun b => (h.rightPile.getD b Pile.zero).n) (fun b p hp => (hsums b p hp).2) hts
  split at hl
  · cases hl
  rename_i ic vc hc
  cases hl
  have hlt : ∀ b ∈ bins, b < edges.length := fun b hb => (hsums b _ (g2 b hb)).1
  unfold getReductionsVec
  rw [hr.isReg, if_neg (by simp), takeE_of (fun i hi => by rw [hr.lenL, ← hr.good.1]; exact hlt i hi),
    takeE_of (fun i hi => by rw [hr.lenR, ← hr.good.1]; exact hlt i hi)]
  simp only []
  rw [sidesVec_eq (n := S.length) (c := (ic, vc)) (VL := VL) (VR := VR) (fun b hb => bal b (hlt b hb)) g1 ?_ ?_ hc, g4]
  · rfl
  · refine (mapE_ok (g := fun r => okOr (.nan, .nan) (getMse r.1 r.2)) ?_).trans ?_
    · intro x hx
      obtain ⟨b, hb, rfl⟩ := List.mem_map.1 hx
      have := (g3 b hb).1
      simp only [if_true, regImpurity] at this
      exact okOr_eq this
    · rw [List.map_map]
      congr 1
      apply List.map_congr_left
      intro b hb
      have := (g3 b hb).1
      simp only [if_true, regImpurity] at this
      simp only [Function.comp, this]
      rfl
  · refine (mapE_ok (g := fun r => okOr (.nan, .nan) (getMse r.1 r.2)) ?_).trans ?_
    · intro x hx
      obtain ⟨b, hb, rfl⟩ := List.mem_map.1 hx
      have := (g3 b hb).2
      simp only [Bool.false_eq_true, if_false, regImpurity] at this
      exact okOr_eq this
    · rw [List.map_map]
      congr 1
      apply List.map_congr_left
      intro b hb
      have := (g3 b hb).2
      simp only [Bool.false_eq_true, if_false, regImpurity] at this
      simp only [Function.comp, this]
      rfl

theorem entropyVarVec_self (lp vp : List (XF K)) (hl : vp.length = lp.length) : entropyVarVec lp lp vp = entropyVar lp vp := by
  match lp, vp, hl with
  | [], [], _ => rfl
  | [_], [_], _ => rfl
  | [_, _], [_, _], _ => rfl
  | _ :: _ :: _ :: _, _ :: _ :: _ :: _, _ => rfl

theorem entropyVarVec_exists {last lp vp : List (XF K)} {v : XF K} (h : entropyVar lp vp = .ok v) :
    ∃ v', entropyVarVec last lp vp = .ok v' := by
  unfold entropyVarVec
  split
  · exact ⟨_, rfl⟩
  · unfold entropyVar at h
    cases h
  · exact ⟨_, rfl⟩

theorem getEntropy_inv {counts : List Nat} {n : Nat} {pop : Option Nat} {v : XF K × XF K} (h : getEntropy counts n pop = .ok v) :
    v.1 = entropyImp (probs counts n) ∧ entropyVar (logProbs (probs counts n : List (XF K))) (varProbs (probs counts n) n pop) = .ok v.2 := by
  unfold getEntropy at h
  simp only [] at h
  split at h
  · cases h
  · rename_i w hw
    cases h
    exact ⟨rfl, hw⟩

/-- One side of the vectorised entropy: it succeeds where the loop does, with the same impurities; with a single bin the variances are
the same too. -/
theorem entropySide {T : Nat → List Nat} {q : Nat → Option Nat} {bins : List Nat} {V : Nat → XF K × XF K}
    (h : ∀ b ∈ bins, getEntropy (T b) (T b).sum (q b) = .ok (V b)) :
    ∃ V' : Nat → XF K × XF K, clsSideVec .entropy (bins.map (fun b => (T b, q b))) = .ok (bins.map V') ∧
      (∀ b ∈ bins, (V' b).1 = (V b).1) ∧ (bins.length = 1 → ∀ b ∈ bins, V' b = V b) := by
  unfold clsSideVec
  simp only []
  generalize hlast : (lastLogs (bins.map (fun b => (T b, q b))) : List (XF K)) = last
  have hv : ∀ b ∈ bins, ∃ v, entropyVarVec last (logProbs (probs (T b) (T b).sum)) (varProbs (probs (T b) (T b).sum) (T b).sum (q b)) = .ok v :=
    fun b hb => entropyVarVec_exists (getEntropy_inv (h b hb)).2
  refine ⟨fun b => (entropyImp (probs (T b) (T b).sum),
    okOr .nan (entropyVarVec last (logProbs (probs (T b) (T b).sum)) (varProbs (probs (T b) (T b).sum) (T b).sum (q b)))), ?_, ?_, ?_⟩
  · refine (mapE_ok (g := fun r => (entropyImp (probs r.1 r.1.sum),
      okOr .nan (entropyVarVec last (logProbs (probs r.1 r.1.sum)) (varProbs (probs r.1 r.1.sum) r.1.sum r.2)))) ?_).trans ?_
    · intro x hx
      obtain ⟨b, hb, rfl⟩ := List.mem_map.1 hx
      obtain ⟨v, hv⟩ := hv b hb
      simp only [hv]
      rfl
    · rw [List.map_map]
      rfl
  · intro b hb
    exact (getEntropy_inv (h b hb)).1.symm
  · intro hl b hb
    match bins, hl, hb, hlast with
    | [b'], _, hb, hlast =>
      obtain rfl : b = b' := by simpa using hb
      obtain ⟨e1, e2⟩ := getEntropy_inv (h b (by simp))
      have hlast : logProbs (probs (T b) (T b).sum) = last := hlast
      simp only [← hlast]
      rw [entropyVarVec_self _ _ (by simp [varProbs, logProbs]), e2]
      exact Prod.ext e1.symm rfl

/-- C92 for the entropy criterion, in part: the vectorised branch returns the same reductions; the variances agree when a single bin is
asked for. -/
theorem C92_entropy_partial (R : Rng K G) (h : Hist K) (hf : Filled R true h) (bins : List Nat) (pop : Option Nat)
    (l : List (XF K × XF K)) (hrun : getReductions h bins .entropy true pop = .ok (.both l)) :
    ∃ l', getReductionsVec h bins .entropy true pop = .ok (.both l') ∧ l'.map Prod.fst = l.map Prod.fst ∧ (bins.length = 1 → l' = l) := by
  obtain ⟨edges, S, hr⟩ := hf.cls
  unfold getReductions impurityReductions at hrun
  rw [hr.isCls, if_pos rfl] at hrun
  split at hrun
  · cases hrun
  rename_i l0 hl0
  cases hrun
  obtain ⟨hS, hne, hlt, VL, VR, c, h1, hc, rfl⟩ := clsReductions_inv hr hl0
  obtain ⟨VL', a1, a2, a3⟩ := entropySide (bins := bins) (T := fun b => h.left.getD b [])
    (q := fun b => pop.map (fun s => (h.left.getD b []).sum * s / S.length)) (fun b hb => (h1 b hb).1)
  obtain ⟨VR', b1, b2, b3⟩ := entropySide (bins := bins) (T := fun b => h.right.getD b [])
    (q := fun b => pop.map (fun s => (h.right.getD b []).sum * s / S.length)) (fun b hb => (h1 b hb).2)
  refine ⟨_, vec_cls hr true hS hne hlt a1 b1 hc, ?_, ?_⟩
  · rw [List.map_map, List.map_map, List.map_map, List.map_map]
    apply List.map_congr_left
    intro b hb
    simp only [Function.comp, combineEdge, weighted]
    rw [a2 b hb, b2 b hb]
  · intro h1
    rw [List.map_map, List.map_map]
    apply List.map_congr_left
    intro b hb
    simp only [Function.comp]
    rw [a3 h1 b hb, b3 h1 b hb]

/-- C92 fails for the parameter `ret_vars`: without it the loop returns one array, the vectorised branch a tuple. -/
theorem C92_refuted_ret_vars (h : Hist K) (bins : List Nat) (m : Criterion) (pop : Option Nat) (r : Reds K)
    (hrun : getReductions h bins m false pop = .ok r) : getReductionsVec h bins m false pop ≠ .ok r := by
  intro hv
  unfold getReductions at hrun
  split at hrun
  · cases hrun
  cases hrun
  unfold getReductionsVec at hv
  simp only [] at hv
  split at hv
  · cases hv
  · cases hv

/-- A classification histogram with three bins, after two batches. -/
def exHistVec : Except Err (Hist ℚ) := do
  let (h0, _) ← Hist.init rngQ 0 true 0 none [] [0, 1] 3 0 10 .linear
  h0.addAll [([[1], [5], [7]], [0, 1, 1]), ([[12], [-1]], [0, 0])]

/-- A regression histogram with three bins, after two batches. -/
def exHistVecReg : Except Err (Hist ℚ) := do
  let (h0, _) ← Hist.init rngQ 0 false 0 none [] [] 3 0 10 .linear
  h0.addAll [([[1], [5], [7]], [0, 1, 2]), ([[12], [-1]], [5, 0])]

example : (∃ h, exHistVec = .ok h ∧ Filled rngQ true h) ∧ (∃ h, exHistVecReg = .ok h ∧ Filled rngQ false h) := by
  constructor
  · have h1 : (exHistVec.toOption).isSome = true := by decide +kernel
    cases h : exHistVec with
    | error e => rw [h] at h1; cases h1
    | ok h' =>
      refine ⟨h', rfl, ?_⟩
      unfold exHistVec at h
      cases hi : Hist.init rngQ 0 true 0 none [] [0, 1] 3 0 10 .linear with
      | error e => rw [hi] at h; cases h
      | ok p =>
        rw [hi] at h
        exact ⟨0, p.2, 0, none, [], [0, 1], 3, 0, 10, .linear, p.1, [0, 5, 10], _,
          ⟨fun _ => ⟨by norm_num, by norm_num⟩, fun h => by cases h⟩, by decide, hi, by
            have : (Hist.init rngQ 0 true 0 none [] [0, 1] 3 0 10 .linear).toOption.map (fun q => q.1.edges) = some (some [0, 5, 10]) := by
              decide +kernel
            rw [hi] at this
            exact Option.some.inj this, h⟩
  · have h1 : (exHistVecReg.toOption).isSome = true := by decide +kernel
    cases h : exHistVecReg with
    | error e => rw [h] at h1; cases h1
    | ok h' =>
      refine ⟨h', rfl, ?_⟩
      unfold exHistVecReg at h
      cases hi : Hist.init rngQ 0 false 0 none [] [] 3 0 10 .linear with
      | error e => rw [hi] at h; cases h
      | ok p =>
        rw [hi] at h
        exact ⟨0, p.2, 0, none, [], [], 3, 0, 10, .linear, p.1, [0, 5, 10], _,
          ⟨fun _ => ⟨by norm_num, by norm_num⟩, fun h => by cases h⟩, by decide, hi, by
            have : (Hist.init rngQ 0 false 0 none [] [] 3 0 10 .linear).toOption.map (fun q => q.1.edges) = some (some [0, 5, 10]) := by
              decide +kernel
            rw [hi] at this
            exact Option.some.inj this, h⟩

example : (do let h ← exHistVec
              getReductions h [0, 1] .gini true (some 10)) = 
      .ok (.both [(.fin (-2 / 25), .fin (8 / 1875)), (.fin (-1 / 75), .fin (64 / 5625))]) ∧
    (do let h ← exHistVecReg
        getReductions h [0, 1] .mse true (some 10)) =
      .ok (.both [(.fin (-2923 / 900), .fin (236457593 / 40824000)), (.fin (-1473 / 400), .fin (314371 / 56000))]) := by
  decide +kernel

/-- C92 fails for the variances of the entropy criterion when several bins are asked for (here with a stand-in for the logarithm):
the logarithms of the last bin are used for all of them. -/
theorem C92_refuted_entropy :
    (do let h ← exHistVec
        getReductions h [0, 1, 2] .entropy true (some 10)) =
      .ok (.both [(.fin (-2 / 25), .fin (2 / 1875)), (.fin (-1 / 75), .fin (16 / 5625)), (.fin (-2 / 25), .fin (2 / 1875))]) ∧
    (do let h ← exHistVec
        getReductionsVec h [0, 1, 2] .entropy true (some 10)) =
      .ok (.both [(.fin (-2 / 25), .fin (164 / 13125)), (.fin (-1 / 75), .fin (97 / 11250)), (.fin (-2 / 25), .fin (2 / 1875))]) := by
  decide +kernel

end FF
