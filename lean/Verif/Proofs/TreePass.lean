import Verif.Proofs.TreeShape
import Verif.Proofs.XFOrd

/-!
# One pass of the loop of `fit`
-/

namespace FF

open Spec

set_option linter.unusedSectionVars false

variable {K : Type} [Field K] [LinearOrder K] [IsStrictOrderedRing K] [FloorRing K] [NpFun K] {G : Type}

theorem fitStep_true {R : Rng K G} {mem : Nat → Junk K} {t t' : Tree K G} {glob glob' : Glob G}
    (hs : fitStep R mem t glob = .ok (true, t', glob')) :
    ∃ s pos id red t1 d, leafLimit t.cfg.maxLeafNodes t.leaves.length = .ok false ∧
      scanLeaves R mem 0 t.leaves { t := t, glob := glob, best := none } = .ok s ∧ s.best = some (pos, id, red) ∧
      red.lt (.fin s.t.cfg.minImpDec) = true ∧ performSplit R mem s pos id = .ok (t1, glob') ∧ getDepth t1 = .ok d ∧
      t' = { t1 with depth := d } := by
  unfold fitStep at hs
  split at hs
  · cases hs
  · cases hs
  · rename_i hlim
    split at hs
    · cases hs
    rename_i s hscan
    split at hs
    · cases hs
    rename_i again t1 glob1 hsb
    split at hs
    · cases hs
    rename_i d hd
    cases hs
    unfold splitBest at hsb
    split at hsb
    · rename_i pos id red hbest
      split_ifs at hsb with himp
      · split at hsb
        · cases hsb
        · rename_i t2 glob2 hp
          cases hsb
          exact ⟨s, pos, id, red, _, d, hlim, hscan, hbest, himp, hp, hd, rfl⟩
      · cases hsb
    · cases hsb

theorem fitStep_false {R : Rng K G} {mem : Nat → Junk K} {t t' : Tree K G} {glob glob' : Glob G}
    (hs : fitStep R mem t glob = .ok (false, t', glob')) :
    (leafLimit t.cfg.maxLeafNodes t.leaves.length = .ok true ∧ t' = t ∧ glob' = glob) ∨
    ∃ s d, leafLimit t.cfg.maxLeafNodes t.leaves.length = .ok false ∧
      scanLeaves R mem 0 t.leaves { t := t, glob := glob, best := none } = .ok s ∧
      (∀ pos id red, s.best = some (pos, id, red) → red.lt (.fin s.t.cfg.minImpDec) = false) ∧ getDepth s.t = .ok d ∧
      t' = { s.t with depth := d } ∧ glob' = s.glob := by
  unfold fitStep at hs
  split at hs
  · cases hs
  · rename_i hlim
    cases hs
    exact Or.inl ⟨hlim, rfl, rfl⟩
  · rename_i hlim
    split at hs
    · cases hs
    rename_i s hscan
    split at hs
    · cases hs
    rename_i again t1 glob1 hsb
    split at hs
    · cases hs
    rename_i d hd
    cases hs
    right
    unfold splitBest at hsb
    split at hsb
    · rename_i pos id red hbest
      split_ifs at hsb with himp
      · split at hsb
        · cases hsb
        · cases hsb
      · cases hsb
        refine ⟨s, d, hlim, hscan, ?_, hd, rfl, rfl⟩
        intro p i r hb
        rw [hbest] at hb
        cases hb
        exact (Bool.not_eq_true _).mp himp
    · rename_i hbest
      cases hsb
      exact ⟨s, d, hlim, hscan, (fun p i r hb => by rw [hbest] at hb; cases hb), hd, rfl, rfl⟩

/-- What is known after the first `k` leaves of the scan. -/
structure Scanned (t0 : Tree K G) (k : Nat) (s : Scan K G) : Prop where
  ok : ScanOK t0 s
  done : ∀ pos < k, ∀ id, t0.leaves[pos]? = some id → ∃ nd, s.t.nodes[id]? = some nd ∧
    (splittableConstraints s.t.cfg nd = .ok false ∨ (splittableConstraints s.t.cfg nd = .ok true ∧ nd.computed = true))
  bestPos : ∀ b, s.best = some b → b.1 < k
  bestMin : ∀ pos < k, ∀ id nd red, t0.leaves[pos]? = some id → s.t.nodes[id]? = some nd →
    splittableConstraints s.t.cfg nd = .ok true → nd.isSplittable = some true → nd.splitReduction = some red → red.lt .pinf = true →
    ∃ b, s.best = some b ∧ red.lt b.2.2 = false ∧ (pos < b.1 → b.2.2.lt red = true)

/-- One leaf changes only its own node, and the best leaf only if the leaf is better. -/
theorem scanLeaf_frame {R : Rng K G} {mem : Nat → Junk K} {t0 : Tree K G} {s s' : Scan K G} {pos id : Nat}
    (h : ScanOK t0 s) (hpos : t0.leaves[pos]? = some id) (hs : scanLeaf R mem pos id s = .ok (some s')) :
    (∀ j, j ≠ id → s'.t.nodes[j]? = s.t.nodes[j]?) ∧
    ∃ nd, s'.t.nodes[id]? = some nd ∧
      ((splittableConstraints s'.t.cfg nd = .ok false ∧ s'.best = s.best) ∨
       (splittableConstraints s'.t.cfg nd = .ok true ∧ nd.computed = true ∧
        s'.best = match nd.splitReduction with
          | none => s.best
          | some red => if red.lt s.bestRed && nd.isSplittable.getD false then some (pos, id, red) else s.best)) := by
  have hmem : id ∈ s.t.leaves := by rw [h.leaves]; exact List.mem_of_getElem? hpos
  obtain ⟨leaf, hleaf, hok⟩ := h.sim.leaf id hmem
  unfold scanLeaf at hs
  rw [hleaf] at hs
  simp only [] at hs
  split at hs
  · cases hs
  · rename_i hc
    cases hs
    refine ⟨fun j hj => List.getElem?_set_ne (Ne.symm hj), _, getElem?_set_eq hleaf, Or.inl ⟨?_, rfl⟩⟩
    exact (constraints_congr rfl rfl rfl).trans hc
  · rename_i hc
    by_cases hbud : noBudget s.t.remaining = true
    · rw [if_pos hbud] at hs
      cases hs
    rw [if_neg hbud] at hs
    split at hs
    · cases hs
    rename_i leaf1 g glob hcalc
    cases hs
    refine ⟨fun j hj => List.getElem?_set_ne (Ne.symm hj), _, getElem?_set_eq hleaf, Or.inr ⟨?_, ?_, ?_⟩⟩
    · by_cases hcomp : leaf.computed = true
      · rw [calcBestSplit_computed hcomp] at hcalc
        cases hcalc
        exact (constraints_congr rfl rfl rfl).trans hc
      · obtain ⟨nb, data, labels, r, q, _, _, _, _, rfl⟩ := calcBestSplit_ok ((Bool.not_eq_true _).mp hcomp) hcalc
        obtain ⟨e1, e2, e3, e4, e5, e6, _⟩ := nodeRecord_static { leaf with numBins := nb } r q
        exact (constraints_congr e6 e5 e4).trans hc
    · by_cases hcomp : leaf.computed = true
      · rw [calcBestSplit_computed hcomp] at hcalc
        cases hcalc
        exact hcomp
      · obtain ⟨nb, data, labels, r, q, _, _, _, _, rfl⟩ := calcBestSplit_ok ((Bool.not_eq_true _).mp hcomp) hcalc
        obtain ⟨_, _, _, _, _, _, _, _, _, _, _, e12, _⟩ := nodeRecord_static { leaf with numBins := nb } r q
        exact e12
    · rfl

theorem Scanned.next {R : Rng K G} {mem : Nat → Junk K} {t0 : Tree K G} {s s' : Scan K G} {pos id : Nat}
    (h : Scanned t0 pos s) (hpos : t0.leaves[pos]? = some id) (hs : scanLeaf R mem pos id s = .ok (some s')) :
    Scanned t0 (pos + 1) s' := by
  obtain ⟨hf, nd, hnd, hcase⟩ := scanLeaf_frame h.ok hpos hs
  have hok := (scanLeaf_sim h.ok hpos hs).2
  have hcfg : s'.t.cfg = s.t.cfg := by rw [hok.cfg, h.ok.cfg]
  have hne : ∀ p < pos, ∀ j, t0.leaves[p]? = some j → j ≠ id := by
    intro p hp j hj heq
    subst heq
    have hn : t0.leaves.Nodup := by rw [← h.ok.leaves]; exact h.ok.sim.nodup
    obtain ⟨h1, h2⟩ := List.getElem?_eq_some_iff.1 hj
    obtain ⟨h3, h4⟩ := List.getElem?_eq_some_iff.1 hpos
    have := (List.Nodup.getElem_inj_iff hn).1 (h2.trans h4.symm)
    omega
  refine ⟨hok, ?_, ?_, ?_⟩
  · intro p hp j hj
    rcases Nat.lt_or_ge p pos with hlt | hge
    · obtain ⟨n, h1, h2⟩ := h.done p hlt j hj
      exact ⟨n, by rw [hf j (hne p hlt j hj)]; exact h1, by rw [hcfg]; exact h2⟩
    · obtain rfl : p = pos := by omega
      rw [hpos] at hj
      cases hj
      refine ⟨nd, hnd, ?_⟩
      rcases hcase with ⟨h1, _⟩ | ⟨h1, h2, _⟩
      · exact Or.inl h1
      · exact Or.inr ⟨h1, h2⟩
  · intro b hb
    rcases hcase with ⟨_, h2⟩ | ⟨_, _, h3⟩
    · rw [h2] at hb
      have := h.bestPos b hb
      omega
    · rw [h3] at hb
      split at hb
      · have := h.bestPos b hb
        omega
      · split at hb
        · cases hb
          simp
        · have := h.bestPos b hb
          omega
  · intro p hp j n red hj hn hc hsp hred hfin
    rcases Nat.lt_or_ge p pos with hlt | hge
    · rw [hf j (hne p hlt j hj)] at hn
      rw [hcfg] at hc
      obtain ⟨b, hb, hb1, hb2⟩ := h.bestMin p hlt j n red hj hn hc hsp hred hfin
      rcases hcase with ⟨_, h2⟩ | ⟨_, _, h3⟩
      · exact ⟨b, by rw [h2]; exact hb, hb1, hb2⟩
      · split at h3
        · exact ⟨b, by rw [h3]; exact hb, hb1, hb2⟩
        · rename_i red' hred'
          split at h3
          · rename_i hif
            rw [Bool.and_eq_true] at hif
            have hlt' : red'.lt b.2.2 = true := by
              have := hif.1
              unfold Scan.bestRed at this
              rw [hb] at this
              exact this
            have hnan : red.isNan = false := by
              cases red <;> first | rfl | cases hfin
            have h4 := XF.lt_of_lt_of_not_lt hnan hlt' hb1
            exact ⟨_, h3, XF.not_lt_of_lt h4, fun _ => h4⟩
          · exact ⟨b, by rw [h3]; exact hb, hb1, hb2⟩
    · obtain rfl : p = pos := by omega
      rw [hpos] at hj
      cases hj
      rw [hnd] at hn
      cases hn
      rcases hcase with ⟨h1, _⟩ | ⟨_, _, h3⟩
      · rw [hc] at h1
        cases h1
      · rw [hred, hsp] at h3
        simp only [Option.getD_some, Bool.and_true] at h3
        split at h3
        · exact ⟨_, h3, XF.lt_irrefl _, fun hlt => absurd hlt (by simp)⟩
        · rename_i hnlt
          unfold Scan.bestRed at hnlt
          rcases Option.eq_none_or_eq_some s.best with hb | ⟨b, hb⟩
          · rw [hb] at hnlt
            exact absurd hfin hnlt
          · rw [hb] at hnlt
            refine ⟨b, by rw [h3, hb], (Bool.not_eq_true _).mp hnlt, fun hlt => ?_⟩
            have := h.bestPos b hb
            omega

/-- The break at a leaf happens because the budget is used up. -/
theorem scanLeaf_break {R : Rng K G} {mem : Nat → Junk K} {s : Scan K G} {pos id : Nat}
    (hs : scanLeaf R mem pos id s = .ok none) : noBudget s.t.remaining = true := by
  unfold scanLeaf at hs
  split at hs
  · cases hs
  · split at hs
    · cases hs
    · cases hs
    · by_cases hb : noBudget s.t.remaining = true
      · exact hb
      · rw [if_neg hb] at hs
        split at hs <;> cases hs

theorem scanLeaves_scanned {R : Rng K G} {mem : Nat → Junk K} {t0 : Tree K G} {ids : List Nat} {pos : Nat} {s s' : Scan K G}
    (h : Scanned t0 pos s) (hids : t0.leaves.drop pos = ids) (hpos : pos ≤ t0.leaves.length)
    (hs : scanLeaves R mem pos ids s = .ok s') :
    ∃ k, pos ≤ k ∧ k ≤ t0.leaves.length ∧ Scanned t0 k s' ∧ (k = t0.leaves.length ∨ noBudget s'.t.remaining = true) := by
  induction ids generalizing pos s with
  | nil =>
    cases hs
    have : t0.leaves.length ≤ pos := by
      rw [← List.drop_eq_nil_iff]; exact hids
    exact ⟨pos, le_refl _, hpos, h, Or.inl (by omega)⟩
  | cons id ids ih =>
    have hget : t0.leaves[pos]? = some id := by
      have := congrArg (fun l => l[0]?) hids
      simpa using this
    have hlt := (List.getElem?_eq_some_iff.1 hget).1
    unfold scanLeaves at hs
    split at hs
    · cases hs
    · rename_i hbr
      cases hs
      exact ⟨pos, le_refl _, hpos, h, Or.inr (scanLeaf_break hbr)⟩
    · rename_i s1 hs1
      obtain ⟨k, h1, h2, h3, h4⟩ := ih (h.next hget hs1) (by
        rw [← List.drop_drop, hids]; rfl) (by omega) hs
      exact ⟨k, by omega, h2, h3, h4⟩

theorem scan_full {R : Rng K G} {mem : Nat → Junk K} {t : Tree K G} {glob : Glob G} {s : Scan K G} (hsim : SimInv t)
    (hs : scanLeaves R mem 0 t.leaves { t := t, glob := glob, best := none } = .ok s) :
    ∃ k, k ≤ t.leaves.length ∧ Scanned t k s ∧ (k = t.leaves.length ∨ noBudget s.t.remaining = true) := by
  obtain ⟨k, _, h2, h3, h4⟩ := scanLeaves_scanned (t0 := t) (pos := 0)
    ⟨⟨hsim, rfl, rfl, fun b hb => by cases hb⟩, (fun p hp => by omega), (fun b hb => by cases hb), (fun p hp => by omega)⟩
    rfl (Nat.zero_le _) hs
  exact ⟨k, h2, h3, h4⟩

theorem scan_steps {R : Rng K G} {mem : Nat → Junk K} {t : Tree K G} {glob : Glob G} {s : Scan K G} (hsim : SimInv t)
    (hs : scanLeaves R mem 0 t.leaves { t := t, glob := glob, best := none } = .ok s) : TSteps R mem t s.t :=
  (scanLeaves_sim (t0 := t) ⟨hsim, rfl, rfl, fun b hb => by cases hb⟩
    (fun i hi => by rw [Nat.zero_add]; exact List.getElem?_eq_getElem hi) hs).1

end FF
