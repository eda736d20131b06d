import Verif.Proofs.HistVec
import Verif.Model.Instances

/-!
# The vectorised insertion (C77)
-/

set_option linter.unusedSectionVars false

namespace FF

open Spec

variable {K : Type} [Field K] [LinearOrder K] [IsStrictOrderedRing K] [FloorRing K] {G : Type}

/-- A sequence of vectorised `add` calls; the first exception ends it. -/
def Hist.addAllVec (h : Hist K) : List (List (List K) × List K) → Except Err (Hist K)
  | [] => .ok h
  | B :: Bs =>
    match h.addVec B.1 B.2 with
    | .error e => .error e
    | .ok h' => Hist.addAllVec h' Bs

/-- The whole number `n` as a label. -/
def natLabel (n : Nat) : K := n

theorem addAllVec_eq {ks : List Nat} (hks : ks.Nodup) (Bs : List (List (List K) × List Nat)) {h h' : Hist K}
    (hT : TablesOK h) (hc : h.classes = ks.map natLabel)
    (hadd : h.addAll (Bs.map (fun B => (B.1, B.2.map natLabel))) = .ok h') :
    h.addAllVec (Bs.map (fun B => (B.1, B.2.map natLabel))) = .ok h' := by
  induction Bs generalizing h with
  | nil => exact hadd
  | cons B Bs ih =>
    rw [List.map_cons] at hadd ⊢
    unfold Hist.addAll at hadd
    unfold Hist.addAllVec
    simp only [] at hadd ⊢
    cases h1 : h.add B.1 (B.2.map natLabel) with
    | error e => rw [h1] at hadd; cases hadd
    | ok h2 =>
      rw [h1] at hadd
      obtain ⟨t, tc⟩ := hT.add h1
      have hy : ∀ y ∈ B.2, y ∈ ks := by
        intro y hy
        cases he : h.edges with
        | none =>
          unfold Hist.add at h1
          split at h1
          · cases h1
          · rw [he] at h1; cases h1
        | some e =>
          obtain ⟨_, _, hl, _⟩ := add_cls_ok hT.1 he h1
          have := hl _ (List.mem_map.2 ⟨y, hy, rfl⟩)
          rw [hc, List.mem_map] at this
          obtain ⟨y', hy', he'⟩ := this
          have : y' = y := Nat.cast_injective (R := K) he'
          exact this ▸ hy'
      have hne : B.2 ≠ [] := by
        intro h0
        rw [h0] at h1
        unfold Hist.add at h1
        cases hcol : colE B.1 h.featureIdx with
        | error e => rw [hcol] at h1; cases h1
        | ok fv =>
          rw [hcol] at h1
          simp only [] at h1
          cases he : h.edges with
          | none => rw [he] at h1; cases h1
          | some e =>
            rw [he] at h1
            simp only [hT.1, if_true] at h1
            split at h1
            · cases h1
            · split at h1
              · cases h1
              · simp [classIdxE] at h1
      have := addVec_eq (X := B.1) hT hc hks hy hne
      have e : h.addVec B.1 (B.2.map natLabel) = .ok h2 := this.trans h1
      rw [e]
      exact ih t (tc.trans hc) hadd

/-- C77. With whole numbers as class labels, whatever batches have been inserted by the branch that the code runs, the vectorised branch
inserts the same batches too and leaves the same histogram. -/
theorem C77_same_tables (R : Rng K G) (g g' : G) (isCls : Bool) (f : Nat) (uf : Option (DiscVals K)) (fData : List K) (ks : List Nat)
    (nb : Nat) (lo hi : K) (bt : BinType) (h0 h : Hist K) (Bs : List (List (List K) × List Nat)) (hks : ks.Nodup)
    (hinit : Hist.init R g isCls f uf fData (ks.map natLabel) nb lo hi bt = .ok (h0, g'))
    (hadd : h0.addAll (Bs.map (fun B => (B.1, B.2.map natLabel))) = .ok h) :
    h0.addAllVec (Bs.map (fun B => (B.1, B.2.map natLabel))) = .ok h := by
  cases isCls with
  | true =>
    have hc : h0.classes = ks.map natLabel := by
      unfold Hist.init at hinit
      split at hinit
      · cases hinit
      · cases hinit
        rfl
    exact addAllVec_eq hks Bs (TablesOK.of_init hinit) hc hadd
  | false =>
    have hcls : h0.isCls = false := by
      unfold Hist.init at hinit
      split at hinit
      · cases hinit
      · cases hinit
        rfl
    clear hinit
    induction Bs generalizing h0 with
    | nil => exact hadd
    | cons B Bs ih =>
      rw [List.map_cons] at hadd ⊢
      unfold Hist.addAll at hadd
      unfold Hist.addAllVec
      simp only [] at hadd ⊢
      have e : h0.addVec B.1 (B.2.map natLabel) = h0.add B.1 (B.2.map natLabel) := by
        unfold Hist.addVec
        rw [hcls]
        rfl
      rw [e]
      cases h1 : h0.add B.1 (B.2.map natLabel) with
      | error e => rw [h1] at hadd; cases hadd
      | ok h2 =>
        rw [h1] at hadd
        refine ih h2 hadd ?_
        unfold Hist.add at h1
        split at h1
        · cases h1
        · split at h1
          · cases h1
          · split at h1
            · rename_i hx
              rw [hcls] at hx
              cases hx
            · split at h1
              · cases h1
              · split at h1
                · cases h1
                · cases h1
                  exact hcls

/-- Three batches on LINEAR bins, with the class numbers 7, 0 and 3. -/
example :
    (do let (h0, _) ← Hist.init rngQ 0 true 0 none [] ([7, 0, 3].map natLabel) 3 0 10 .linear
        let h ← h0.addAllVec [([[1], [5]], [0, 3]), ([[12]], [7]), ([[-1], [7]], [3, 3])]
        pure (h.left, h.right)).toOption
      = some ([[0, 0, 1], [0, 1, 2], [0, 1, 3]], [[1, 1, 2], [1, 0, 1], [1, 0, 0]]) ∧
    (do let (h0, _) ← Hist.init rngQ 0 true 0 none [] ([7, 0, 3].map natLabel) 3 0 10 .linear
        let h ← h0.addAll [([[1], [5]], [0, 3]), ([[12]], [7]), ([[-1], [7]], [3, 3])]
        pure (h.left, h.right)).toOption
      = some ([[0, 0, 1], [0, 1, 2], [0, 1, 3]], [[1, 1, 2], [1, 0, 1], [1, 0, 0]]) := by
  decide +kernel

/-- The two branches differ on a label that is no class: the scalar branch raises KeyError, the vectorised one counts the sample as one of
the first class. -/
theorem C77_unknown_label :
    (do let (h0, _) ← Hist.init rngQ 0 true 0 none [] ([7, 0, 3].map natLabel) 3 0 10 .linear
        h0.addAll [([[1]], [5])]).toOption.isNone ∧
    (do let (h0, _) ← Hist.init rngQ 0 true 0 none [] ([7, 0, 3].map natLabel) 3 0 10 .linear
        let h ← h0.addAllVec [([[1]], [5])]
        pure (h.left, h.right)).toOption
      = some ([[0, 0, 0], [1, 0, 0], [1, 0, 0]], [[1, 0, 0], [0, 0, 0], [0, 0, 0]]) := by
  decide +kernel

end FF
