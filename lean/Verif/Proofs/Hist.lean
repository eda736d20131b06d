import Verif.Model.Histogram
import Verif.Spec.Basic
import Mathlib.Data.List.GetD
import Mathlib.Tactic.Ring
import Mathlib.Tactic.Linarith
import Mathlib.Tactic.FieldSimp

/-! # Lemmas about histograms -/

set_option linter.unusedSectionVars false

namespace FF

variable {K : Type} [Field K] [LinearOrder K] [IsStrictOrderedRing K] [FloorRing K] {G : Type}

/-- The bin lookup agrees with comparing against the edges. -/
def GoodBins (h : Hist K) (edges : List K) : Prop :=
  edges.length = h.numBins ∧ ∀ (v : K) (b : Nat) (hb : b < edges.length), h.getBin edges v ≤ b ↔ v ≤ edges[b]

theorem length_linspace (lo hi : K) (n : Nat) : (linspace lo hi n).length = n := by
  unfold linspace; split <;> simp_all

theorem searchsorted_le {edges : List K} (hs : edges.Pairwise (· ≤ ·)) (v : K) (b : Nat) (hb : b < edges.length) :
    searchsorted edges v ≤ b ↔ v ≤ edges[b] := by
  unfold searchsorted
  induction edges generalizing b with
  | nil => simp at hb
  | cons e es ih =>
    rw [List.pairwise_cons] at hs
    by_cases hev : e < v
    · rw [List.filter_cons_of_pos (by simpa using hev)]
      cases b with
      | zero => simp [hev]
      | succ b =>
        simp only [List.length_cons, Nat.add_le_add_iff_right, List.getElem_cons_succ]
        exact ih hs.2 b (by simpa using hb)
    · rw [List.filter_cons_of_neg (by simpa using hev)]
      have hev' : v ≤ e := not_lt.1 hev
      have hall : ∀ x ∈ es, ¬ x < v := fun x hx => not_lt.2 (hev'.trans (hs.1 x hx))
      rw [List.filter_eq_nil_iff.2 (by simpa using fun x hx => not_lt.1 (hall x hx))]
      simp only [List.length_nil, Nat.zero_le, true_iff]
      cases b with
      | zero => simpa using hev'
      | succ b => simpa using hev'.trans (hs.1 _ (List.getElem_mem _))

theorem goodBins_linear {h : Hist K} (ht : h.binType = .linear) (hn : h.numBins ≠ 1) (hlt : h.minBin < h.maxBin) :
    GoodBins h (linspace h.minBin h.maxBin h.numBins) := by
  refine ⟨length_linspace _ _ _, fun v b hb => ?_⟩
  rw [length_linspace] at hb
  have hn2 : 2 ≤ h.numBins := by omega
  have hn1 : (0 : K) < (h.numBins : K) - 1 := by
    have : (2 : K) ≤ (h.numBins : K) := by exact_mod_cast hn2
    linarith
  have hw : 0 < (h.maxBin - h.minBin) / ((h.numBins : K) - 1) := div_pos (by linarith) hn1
  have he : (linspace h.minBin h.maxBin h.numBins)[b]'(by rw [length_linspace]; exact hb)
      = h.minBin + (b : K) * ((h.maxBin - h.minBin) / ((h.numBins : K) - 1)) := by
    simp only [linspace, if_neg hn, List.getElem_map, List.getElem_range]
  rw [he]
  unfold Hist.getBin
  rw [if_pos ht, if_neg hn]
  set w := (h.maxBin - h.minBin) / ((h.numBins : K) - 1) with hwd
  simp only []
  have key : v ≤ h.minBin + (b : K) * w ↔ ⌈(v - h.minBin) / w⌉ ≤ (b : Int) := by
    rw [Int.ceil_le, div_le_iff₀ hw]
    push_cast
    constructor <;> intro <;> linarith
  rw [key]
  set c : Int := ⌈(v - h.minBin) / w⌉
  split_ifs <;> omega

theorem goodBins_search {h : Hist K} {edges : List K} (ht : h.binType ≠ .linear) (hl : edges.length = h.numBins)
    (hs : edges.Pairwise (· ≤ ·)) : GoodBins h edges := by
  refine ⟨hl, fun v b hb => ?_⟩
  unfold Hist.getBin
  rw [if_neg ht]
  exact searchsorted_le hs v b hb

theorem npUnique_sorted (l : List K) : (npUnique l).Pairwise (· ≤ ·) := List.pairwise_insertionSort _ _

theorem npUnique_nodup (l : List K) : (npUnique l).Nodup :=
  (List.perm_insertionSort _ _).nodup_iff.2 (List.nodup_dedup l)

theorem mem_npUnique {l : List K} {x : K} : x ∈ npUnique l ↔ x ∈ l := by
  unfold npUnique
  rw [(List.perm_insertionSort _ _).mem_iff, List.mem_dedup]

theorem npUnique_perm (l : List K) : (npUnique l).Perm l.dedup := List.perm_insertionSort _ _

/-! ### Tables -/

/-- Entry `(b, j)` of a table. -/
def cell (t : List (List Nat)) (b j : Nat) : Nat := (t.getD b []).getD j 0

/-- A table with `n` rows of length `m`. -/
def Shape (t : List (List Nat)) (n m : Nat) : Prop := t.length = n ∧ ∀ r ∈ t, r.length = m

theorem Shape.row {t : List (List Nat)} {n m b : Nat} (h : Shape t n m) (hb : b < n) : (t.getD b []).length = m := by
  rw [List.getD_eq_getElem _ _ (by rw [h.1]; exact hb)]
  exact h.2 _ (List.getElem_mem _)

theorem length_bump (r : List Nat) (y : Nat) : (bump r y).length = r.length := by simp [bump]

theorem getD_bump (r : List Nat) (y j : Nat) (hy : y < r.length) :
    (bump r y).getD j 0 = r.getD j 0 + if y = j then 1 else 0 := by
  unfold bump
  by_cases hj : j < r.length
  · rw [List.getD_eq_getElem _ _ (by simpa using hj), List.getElem_modify, List.getD_eq_getElem _ _ hj]
    split <;> simp
  · rw [List.getD_eq_default _ _ (by simpa using not_lt.1 hj), List.getD_eq_default _ _ (not_lt.1 hj), if_neg (by omega)]

theorem shape_mapIdx_bump {t : List (List Nat)} {n m : Nat} (h : Shape t n m) (p : Nat → Bool) (y : Nat) :
    Shape (t.mapIdx (fun i row => if p i then bump row y else row)) n m := by
  refine ⟨by simpa using h.1, fun r hr => ?_⟩
  rw [List.mem_mapIdx] at hr
  obtain ⟨i, hi, rfl⟩ := hr
  split
  · rw [length_bump]; exact h.2 _ (List.getElem_mem _)
  · exact h.2 _ (List.getElem_mem _)

theorem cell_mapIdx_bump {t : List (List Nat)} {n m : Nat} (h : Shape t n m) (p : Nat → Bool) (y b j : Nat)
    (hy : y < m) (hb : b < n) :
    cell (t.mapIdx (fun i row => if p i then bump row y else row)) b j
      = cell t b j + if p b ∧ y = j then 1 else 0 := by
  unfold cell
  have hb' : b < t.length := by rw [h.1]; exact hb
  rw [List.getD_eq_getElem (t.mapIdx _) _ (by simpa using hb'), List.getElem_mapIdx, List.getD_eq_getElem t _ hb']
  by_cases hp : p b
  · rw [if_pos hp, getD_bump _ _ _ (by rw [h.2 _ (List.getElem_mem _)]; exact hy)]
    simp [hp]
  · rw [if_neg hp]; simp [hp]

/-- Number of inserted pairs (bin, class) on the left of edge `b`. -/
def nLe (S : List (Nat × Nat)) (b j : Nat) : Nat := S.countP (fun s => decide (s.1 ≤ b ∧ s.2 = j))

/-- Number of inserted pairs (bin, class) on the right of edge `b`. -/
def nGt (S : List (Nat × Nat)) (b j : Nat) : Nat := S.countP (fun s => decide (b < s.1 ∧ s.2 = j))

theorem addOne_shape {lr : List (List Nat) × List (List Nat)} {n m : Nat} (s : Nat × Nat)
    (h1 : Shape lr.1 n m) (h2 : Shape lr.2 n m) : Shape (addOne lr s).1 n m ∧ Shape (addOne lr s).2 n m := by
  unfold addOne
  have a := shape_mapIdx_bump h1 (fun i => decide (s.1 ≤ i)) s.2
  have b := shape_mapIdx_bump h2 (fun i => decide (i < s.1)) s.2
  simp only [decide_eq_true_eq] at a b
  exact ⟨a, b⟩

theorem foldl_addOne_shape {n m : Nat} (S : List (Nat × Nat)) {lr : List (List Nat) × List (List Nat)}
    (h1 : Shape lr.1 n m) (h2 : Shape lr.2 n m) :
    Shape (S.foldl addOne lr).1 n m ∧ Shape (S.foldl addOne lr).2 n m := by
  induction S generalizing lr with
  | nil => exact ⟨h1, h2⟩
  | cons s S ih => exact ih (addOne_shape s h1 h2).1 (addOne_shape s h1 h2).2

theorem addOne_cell {lr : List (List Nat) × List (List Nat)} {n m : Nat} (s : Nat × Nat)
    (h1 : Shape lr.1 n m) (h2 : Shape lr.2 n m) (hs : s.2 < m) (b j : Nat) (hb : b < n) :
    cell (addOne lr s).1 b j = cell lr.1 b j + (if s.1 ≤ b ∧ s.2 = j then 1 else 0) ∧
    cell (addOne lr s).2 b j = cell lr.2 b j + (if b < s.1 ∧ s.2 = j then 1 else 0) := by
  unfold addOne
  have a := cell_mapIdx_bump h1 (fun i => decide (s.1 ≤ i)) s.2 b j hs hb
  have c := cell_mapIdx_bump h2 (fun i => decide (i < s.1)) s.2 b j hs hb
  simp only [decide_eq_true_eq] at a c
  exact ⟨a, c⟩

theorem foldl_addOne_cell {n m : Nat} (S : List (Nat × Nat)) (hS : ∀ s ∈ S, s.2 < m)
    {lr : List (List Nat) × List (List Nat)} (h1 : Shape lr.1 n m) (h2 : Shape lr.2 n m) (b j : Nat) (hb : b < n) :
    cell (S.foldl addOne lr).1 b j = cell lr.1 b j + nLe S b j ∧
    cell (S.foldl addOne lr).2 b j = cell lr.2 b j + nGt S b j := by
  induction S generalizing lr with
  | nil => simp [nLe, nGt]
  | cons s S ih =>
    have hsh := addOne_shape s h1 h2
    have := ih (fun x hx => hS x (List.mem_cons_of_mem _ hx)) hsh.1 hsh.2
    have hc := addOne_cell s h1 h2 (hS s (List.mem_cons_self)) b j hb
    simp only [List.foldl_cons]
    rw [this.1, this.2, hc.1, hc.2]
    simp only [nLe, nGt, List.countP_cons, decide_eq_true_eq]
    constructor <;> split_ifs <;> omega

theorem shape_replicate (n m : Nat) : Shape (List.replicate n (List.replicate m 0)) n m := by
  refine ⟨by simp, fun r hr => ?_⟩
  rw [List.mem_replicate] at hr
  rw [hr.2]; simp

theorem cell_replicate (n m b j : Nat) : cell (List.replicate n (List.replicate m 0)) b j = 0 := by
  unfold cell
  rcases lt_or_ge b n with h | h
  · rw [List.getD_eq_getElem (List.replicate n _) _ (by simpa using h)]
    simp only [List.getElem_replicate]
    rcases lt_or_ge j m with h' | h'
    · rw [List.getD_eq_getElem _ _ (by simpa using h')]; simp
    · rw [List.getD_eq_default _ _ (by simpa using h')]
  · rw [List.getD_eq_default (List.replicate n _) _ (by simpa using h)]; simp

end FF
