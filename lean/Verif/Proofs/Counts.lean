import Verif.Proofs.TreeFacts

/-!
# Class counts, `argmax`, and dictionaries of classes
-/

namespace FF

open Spec

set_option linter.unusedSectionVars false

variable {K : Type} [Field K] [LinearOrder K] [IsStrictOrderedRing K] [FloorRing K] [NpFun K] {G : Type}

theorem countOccurrence_eq (c : K) (ys : List K) : countOccurrence c ys = ys.count c := by
  unfold countOccurrence
  rw [List.count, List.countP_eq_length_filter]
  congr 1

theorem mem_pair_of_lookup {d : ClassDict K} {u : K} {i : Nat} (h : d.lookup u = some i) : (u, i) ∈ d := by
  induction d with
  | nil => cases h
  | cons p d ih =>
    obtain ⟨a, b⟩ := p
    rw [List.lookup_cons] at h
    by_cases he : u = a
    · subst he
      simp only [beq_self_eq_true] at h
      cases h
      exact List.mem_cons_self
    · rw [beq_eq_false_iff_ne.2 he] at h
      exact List.mem_cons_of_mem _ (ih h)

theorem lookup_of_mem {d : ClassDict K} (hn : (d.map Prod.fst).Nodup) {u : K} {i : Nat} (h : (u, i) ∈ d) : d.lookup u = some i := by
  induction d with
  | nil => cases h
  | cons p d ih =>
    obtain ⟨a, b⟩ := p
    rw [List.map_cons, List.nodup_cons] at hn
    rw [List.lookup_cons]
    rcases List.mem_cons.1 h with h' | h''
    · cases h'
      simp
    · have : u ≠ a := by
        rintro rfl
        exact hn.1 (List.mem_map.2 ⟨_, h'', rfl⟩)
      rw [beq_eq_false_iff_ne.2 this]
      exact ih hn.2 h''

theorem ClassesOK.snd {d : ClassDict K} (h : ClassesOK d) {i : Nat} {p : K × Nat} (hp : d[i]? = some p) : p.2 = i := by
  have h1 : (d.map Prod.snd)[i]? = some p.2 := by rw [List.getElem?_map, hp]; rfl
  rw [h.2] at h1
  obtain ⟨hl, hv⟩ := List.getElem?_eq_some_iff.1 h1
  rw [List.getElem_range] at hv
  exact hv.symm

theorem ClassesOK.lookup {d : ClassDict K} (h : ClassesOK d) (u : K) (i : Nat) : d.lookup u = some i ↔ d[i]? = some (u, i) := by
  constructor
  · intro hl
    obtain ⟨j, hj⟩ := List.mem_iff_getElem?.1 (mem_pair_of_lookup hl)
    have := h.snd hj
    simp only at this
    rw [← this] at hj
    exact hj
  · intro hi
    exact lookup_of_mem h.1 (List.mem_of_getElem? hi)

theorem ClassesOK.idxToClass {d : ClassDict K} (h : ClassesOK d) (i : Nat) (l : K) : idxToClass d i = some l ↔ d[i]? = some (l, i) := by
  constructor
  · intro hl
    unfold FF.idxToClass at hl
    rw [Option.map_eq_some_iff] at hl
    obtain ⟨q, hq, rfl⟩ := hl
    have hm := List.mem_filter.1 (List.mem_of_getLast? hq)
    obtain ⟨j, hj⟩ := List.mem_iff_getElem?.1 hm.1
    have h1 := h.snd hj
    have h2 : q.2 = i := by simpa using hm.2
    rw [← h2, h1, hj]
    rw [show q = (q.1, j) from by rw [← h1]]
  · intro hi
    have hm : (l, i) ∈ d.filter (fun p => p.2 = i) := List.mem_filter.2 ⟨List.mem_of_getElem? hi, by simp⟩
    unfold FF.idxToClass
    cases hg : (d.filter (fun p => p.2 = i)).getLast? with
    | none =>
      rw [List.getLast?_eq_none_iff] at hg
      rw [hg] at hm
      cases hm
    | some q =>
      have hq := List.mem_filter.1 (List.mem_of_getLast? hg)
      obtain ⟨j, hj⟩ := List.mem_iff_getElem?.1 hq.1
      have h1 := h.snd hj
      have h2 : q.2 = i := by simpa using hq.2
      rw [← h1, h2] at hj
      rw [hi] at hj
      cases hj
      rfl

theorem countsLoop_spec {d : ClassDict K} (hd : ClassesOK d) {labels us : List K} {c c' : List Nat} (hc : c.length = d.length)
    (h : countsLoop d labels us c = .ok c') :
    c'.length = d.length ∧ (∀ u ∈ us, u ∈ d.map Prod.fst) ∧
      ∀ (i : Nat) (p : K × Nat), d[i]? = some p → c'.getD i 0 = if p.1 ∈ us then labels.count p.1 else c.getD i 0 := by
  induction us generalizing c with
  | nil =>
    simp only [countsLoop, Except.ok.injEq] at h
    subst h
    exact ⟨hc, by simp, by simp⟩
  | cons u us ih =>
    rw [countsLoop] at h
    cases hl : d.lookup u with
    | none => rw [hl] at h; cases h
    | some i =>
      rw [hl] at h
      simp only [] at h
      by_cases hi : i < c.length
      swap
      · rw [if_neg hi] at h; cases h
      rw [if_pos hi] at h
      obtain ⟨h1, h2, h3⟩ := ih (by rw [List.length_set]; exact hc) h
      have hdi := (hd.lookup u i).1 hl
      refine ⟨h1, ?_, ?_⟩
      · intro v hv
        rcases List.mem_cons.1 hv with rfl | hv
        · exact List.mem_map.2 ⟨_, List.mem_of_getElem? hdi, rfl⟩
        · exact h2 v hv
      · intro j p hj
        rw [h3 j p hj]
        by_cases hp : p.1 ∈ us
        · rw [if_pos hp, if_pos (List.mem_cons_of_mem _ hp)]
        · rw [if_neg hp]
          by_cases hpu : p.1 = u
          · have : j = i := by
              have e1 := (hd.lookup p.1 j).2 (by rw [hj]; rw [← hd.snd hj])
              rw [hpu, hl] at e1
              exact (Option.some.inj e1).symm
            subst this
            rw [if_pos (by rw [hpu]; exact List.mem_cons_self), List.getD_eq_getElem _ _ (by rw [List.length_set]; exact hi),
              List.getElem_set_self, countOccurrence_eq, hpu]
          · have : i ≠ j := by
              rintro rfl
              rw [hj] at hdi
              cases hdi
              exact hpu rfl
            rw [if_neg (by simp [hpu, hp])]
            simp only [List.getD_eq_getElem?_getD, List.getElem?_set_ne this]

/-- `counts_of_labels` counts: one entry per class, in the order of the dictionary; every label is a class. -/
theorem countsOfLabels_spec {d : ClassDict K} (hd : ClassesOK d) {labels : List K} {c : List Nat} (h : countsOfLabels d labels = .ok c) :
    c = d.map (fun p => labels.count p.1) ∧ ∀ y ∈ labels, y ∈ d.map Prod.fst := by
  obtain ⟨h1, h2, h3⟩ := countsLoop_spec hd (List.length_replicate ..) h
  have hm : ∀ y, y ∈ npUnique labels ↔ y ∈ labels := fun y => by
    unfold npUnique
    rw [List.mem_insertionSort, List.mem_dedup]
  refine ⟨?_, fun y hy => h2 y ((hm y).2 hy)⟩
  apply List.ext_getElem (by rw [h1, List.length_map])
  intro i hi hi'
  have hid : i < d.length := by rw [← h1]; exact hi
  have := h3 i d[i] (List.getElem?_eq_getElem hid)
  rw [List.getD_eq_getElem _ _ hi] at this
  rw [this, List.getElem_map]
  by_cases hp : d[i].1 ∈ labels
  · rw [if_pos ((hm _).2 hp)]
  · rw [if_neg (fun hh => hp ((hm _).1 hh)), List.count_eq_zero_of_not_mem hp, List.getD_eq_getElem _ _ (by simpa using hid)]
    simp

theorem sum_count_eq_length {α : Type} [DecidableEq α] (keys : List α) (hn : keys.Nodup) (l : List α) (h : ∀ x ∈ l, x ∈ keys) :
    (keys.map (fun k => l.count k)).sum = l.length := by
  induction l with
  | nil => simp
  | cons x l ih =>
    have h1 : ∀ ks : List α, (ks.map (fun k => (x :: l).count k)).sum = (ks.map (fun k => l.count k)).sum + ks.count x := by
      intro ks
      induction ks with
      | nil => rfl
      | cons k ks ihk =>
        rw [List.map_cons, List.sum_cons, ihk, List.map_cons, List.sum_cons, List.count_cons, List.count_cons]
        by_cases hk : x = k
        · subst hk
          simp only [beq_self_eq_true, if_true]
          omega
        · rw [if_neg (by simpa using hk), if_neg (by simpa using fun e : k = x => hk e.symm)]
          omega
    rw [h1, ih (fun y hy => h y (List.mem_cons_of_mem _ hy)), List.count_eq_one_of_mem hn (h x List.mem_cons_self)]
    rfl

theorem argmaxGo_spec (xs : List K) (i bi : Nat) (b : K) :
    (argmaxGo xs i bi b = bi ∧ ∀ x ∈ xs, x ≤ b) ∨
      ∃ j m, argmaxGo xs i bi b = i + j ∧ xs[j]? = some m ∧ b < m ∧ (∀ x ∈ xs, x ≤ m) ∧
        ∀ j' < j, ∀ q, xs[j']? = some q → q < m := by
  induction xs generalizing i bi b with
  | nil => exact Or.inl ⟨rfl, by simp⟩
  | cons x xs ih =>
    rw [argmaxGo]
    by_cases hx : b < x
    · rw [if_pos hx]
      right
      rcases ih (i + 1) i x with ⟨h1, h2⟩ | ⟨j, m, h1, h2, h3, h4, h5⟩
      · refine ⟨0, x, by rw [h1]; rfl, rfl, hx, ?_, by simp⟩
        intro y hy
        rcases List.mem_cons.1 hy with rfl | hy
        · exact le_rfl
        · exact h2 y hy
      · refine ⟨j + 1, m, by rw [h1]; omega, h2, hx.trans h3, ?_, ?_⟩
        · intro y hy
          rcases List.mem_cons.1 hy with rfl | hy
          · exact h3.le
          · exact h4 y hy
        · intro j' hj' q hq
          cases j' with
          | zero => cases hq; exact h3
          | succ j' => exact h5 j' (by omega) q hq
    · rw [if_neg hx]
      rcases ih (i + 1) bi b with ⟨h1, h2⟩ | ⟨j, m, h1, h2, h3, h4, h5⟩
      · refine Or.inl ⟨h1, ?_⟩
        intro y hy
        rcases List.mem_cons.1 hy with rfl | hy
        · exact not_lt.1 hx
        · exact h2 y hy
      · refine Or.inr ⟨j + 1, m, by rw [h1]; omega, h2, h3, ?_, ?_⟩
        · intro y hy
          rcases List.mem_cons.1 hy with rfl | hy
          · exact (not_lt.1 hx).trans h3.le
          · exact h4 y hy
        · intro j' hj' q hq
          cases j' with
          | zero => cases hq; exact lt_of_le_of_lt (not_lt.1 hx) h3
          | succ j' => exact h5 j' (by omega) q hq

theorem npArgmax_spec {l : List K} {i : Nat} (h : npArgmax l = some i) :
    ∃ m, l[i]? = some m ∧ ∀ (j : Nat) (q : K), l[j]? = some q → q ≤ m ∧ (j < i → q < m) := by
  cases l with
  | nil => cases h
  | cons x xs =>
    simp only [npArgmax, Option.some.injEq] at h
    rcases argmaxGo_spec xs 1 0 x with ⟨h1, h2⟩ | ⟨j, m, h1, h2, h3, h4, h5⟩
    · rw [h1] at h
      subst h
      refine ⟨x, rfl, ?_⟩
      intro j q hq
      refine ⟨?_, fun hj => absurd hj (by omega)⟩
      rcases List.mem_cons.1 (List.mem_of_getElem? hq) with rfl | hq
      · exact le_rfl
      · exact h2 q hq
    · rw [h1] at h
      subst h
      refine ⟨m, by rw [show 1 + j = j + 1 from by omega]; exact h2, ?_⟩
      intro j' q hq
      constructor
      · rcases List.mem_cons.1 (List.mem_of_getElem? hq) with rfl | hq
        · exact h3.le
        · exact h4 q hq
      · intro hj'
        cases j' with
        | zero => cases hq; exact h3
        | succ j' => exact h5 j' (by omega) q hq

theorem npArgmax_total {l : List K} (h : l ≠ []) : ∃ i, npArgmax l = some i := by
  cases l with
  | nil => exact absurd rfl h
  | cons x xs => exact ⟨_, rfl⟩

end FF
