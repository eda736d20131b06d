import Verif.Proofs.HistRep
import Verif.Model.HistVec

/-!
# The vectorised insertion computes the same tables
-/

namespace FF

open Spec

set_option linter.unusedSectionVars false

variable {K : Type} [Field K] [LinearOrder K] [IsStrictOrderedRing K] [FloorRing K] {G : Type}

theorem asIndex_nat (n : Nat) : asIndex (n : K) = some n := by
  unfold asIndex
  rw [if_pos ⟨by positivity, by simp⟩]
  simp

theorem asIndices_nat (ns : List Nat) : asIndices (ns.map (fun (n : Nat) => (n : K))) = .ok ns := by
  induction ns with
  | nil => rfl
  | cons n ns ih =>
    rw [List.map_cons, asIndices, asIndex_nat]
    simp only []
    rw [ih]

theorem foldl_max_ge (l : List Nat) (a : Nat) : a ≤ l.foldl max a ∧ ∀ x ∈ l, x ≤ l.foldl max a := by
  induction l generalizing a with
  | nil => exact ⟨le_refl _, by simp⟩
  | cons y l ih =>
    rw [List.foldl_cons]
    obtain ⟨h1, h2⟩ := ih (max a y)
    refine ⟨le_trans (le_max_left _ _) h1, fun x hx => ?_⟩
    rcases List.mem_cons.1 hx with rfl | hx
    · exact le_trans (le_max_right _ _) h1
    · exact h2 x hx

theorem foldl_max_mem (l : List Nat) (a : Nat) : l.foldl max a = a ∨ l.foldl max a ∈ l := by
  induction l generalizing a with
  | nil => exact Or.inl rfl
  | cons y l ih =>
    rw [List.foldl_cons]
    rcases ih (max a y) with h | h
    · rcases le_total a y with h' | h'
      · right; rw [h, max_eq_right h']; exact List.mem_cons_self
      · left; rw [h, max_eq_left h']
    · right; exact List.mem_cons_of_mem _ h

theorem setFold_length {α : Type} (ps : List (Nat × α)) (a : List α) : (ps.foldl (fun a p => a.set p.1 p.2) a).length = a.length := by
  induction ps generalizing a with
  | nil => rfl
  | cons p ps ih => rw [List.foldl_cons, ih, List.length_set]

theorem setFold_other {α : Type} (ps : List (Nat × α)) (a : List α) (i : Nat) (h : ∀ p ∈ ps, p.1 ≠ i) :
    (ps.foldl (fun a p => a.set p.1 p.2) a)[i]? = a[i]? := by
  induction ps generalizing a with
  | nil => rfl
  | cons p ps ih =>
    rw [List.foldl_cons, ih _ (fun q hq => h q (List.mem_cons_of_mem _ hq)), List.getElem?_set_ne (h p List.mem_cons_self)]

theorem setFold_mem {α : Type} (ps : List (Nat × α)) (hn : (ps.map Prod.fst).Nodup) (a : List α) (p : Nat × α) (hp : p ∈ ps)
    (hi : p.1 < a.length) : (ps.foldl (fun a p => a.set p.1 p.2) a)[p.1]? = some p.2 := by
  induction ps generalizing a with
  | nil => cases hp
  | cons q ps ih =>
    rw [List.map_cons, List.nodup_cons] at hn
    rw [List.foldl_cons]
    rcases List.mem_cons.1 hp with rfl | hp
    · rw [setFold_other _ _ _ (fun r hr he => hn.1 (List.mem_map.2 ⟨r, hr, he⟩)), List.getElem?_set_self hi]
    · exact ih hn.2 _ hp (by rw [List.length_set]; exact hi)

/-- Class numbers looked up through the mapping array. -/
theorem replaceArray_nat (ks ys : List Nat) (hn : ks.Nodup) (hne : ks ≠ []) (hy : ∀ y ∈ ys, y ∈ ks) :
    replaceArray (ks.map (fun (n : Nat) => (n : K))) (ys.map (fun (n : Nat) => (n : K))) = .ok (ys.map (fun y => ks.idxOf y)) := by
  unfold replaceArray
  rw [asIndices_nat, asIndices_nat]
  cases hks : ks with
  | nil => exact absurd hks hne
  | cons k ks' =>
    simp only []
    rw [← hks]
    have hlen : (mappingArray ks).length = ks.foldl max 0 + 1 := by
      unfold mappingArray
      rw [setFold_length, List.length_replicate]
    have hget : ∀ y ∈ ks, (mappingArray ks)[y]? = some (ks.idxOf y) := by
      intro y hy
      have hi := List.idxOf_lt_length_of_mem hy
      have hm : (y, ks.idxOf y) ∈ ks.zip (List.range ks.length) := by
        rw [List.mem_iff_getElem?]
        refine ⟨ks.idxOf y, ?_⟩
        rw [List.getElem?_zip_eq_some]
        exact ⟨by rw [List.getElem?_eq_getElem hi, List.getElem_idxOf], by rw [List.getElem?_range hi]⟩
      unfold mappingArray
      exact setFold_mem _ (by rw [List.map_fst_zip (by simp)]; exact hn) _ _ hm
        (by rw [List.length_replicate]; have := (foldl_max_ge ks 0).2 y hy; omega)
    unfold takeE
    rw [if_pos]
    · congr 1
      apply List.map_congr_left
      intro y hyy
      rw [List.getD_eq_getElem?_getD, hget y (hy y hyy)]
      rfl
    · rw [List.all_eq_true]
      intro y hyy
      have := (List.getElem?_eq_some_iff.1 (hget y (hy y hyy))).1
      simpa using this

theorem bincount_range {l : List Nat} {k : Nat} (hk : 0 < k) (hl : ∀ x ∈ l, x < k) :
    (bincount (l ++ List.range k)).map (fun c => c - 1) = (List.range k).map (fun j => l.count j) := by
  have hne : l ++ List.range k ≠ [] := by
    intro h
    rw [List.append_eq_nil_iff, List.range_eq_nil] at h
    omega
  have hmax : (l ++ List.range k).foldl max 0 + 1 = k := by
    have h1 := (foldl_max_ge (l ++ List.range k) 0).2 (k - 1) (List.mem_append_right _ (by rw [List.mem_range]; omega))
    rcases foldl_max_mem (l ++ List.range k) 0 with h | h
    · omega
    · rcases List.mem_append.1 h with h | h
      · have := hl _ h; omega
      · rw [List.mem_range] at h; omega
  unfold bincount
  rw [if_neg hne, hmax, List.map_map]
  apply List.map_congr_left
  intro j hj
  simp only [Function.comp]
  rw [List.count_append, List.count_eq_one_of_mem List.nodup_range hj]
  omega

theorem binRow_eq {k : Nat} (hk : 0 < k) {bins newY : List Nat} (hy : ∀ y ∈ newY, y < k) (b : Nat) :
    binRow k bins newY b = (List.range k).map (fun j => (bins.zip newY).countP (fun s => decide (s.1 = b ∧ s.2 = j))) := by
  unfold binRow
  rw [bincount_range hk]
  · apply List.map_congr_left
    intro j _
    rw [List.count, List.countP_map, List.countP_filter]
    apply List.countP_congr
    intro s _
    simp [and_comm]
  · intro x hx
    obtain ⟨p, hp, rfl⟩ := List.mem_map.1 hx
    exact hy _ (List.of_mem_zip (List.mem_filter.1 hp).1).2

theorem shape_addRow {lr : List (List Nat) × List (List Nat)} {n m : Nat} (h1 : Shape lr.1 n m) (h2 : Shape lr.2 n m) (b : Nat)
    {row : List Nat} (hr : row.length = m) : Shape (addRow lr b row).1 n m ∧ Shape (addRow lr b row).2 n m := by
  unfold addRow
  constructor
  · refine ⟨by simpa using h1.1, fun r hr' => ?_⟩
    rw [List.mem_mapIdx] at hr'
    obtain ⟨i, hi, rfl⟩ := hr'
    have := h1.2 _ (List.getElem_mem hi)
    split
    · rw [List.length_zipWith, this, hr, min_self]
    · exact this
  · refine ⟨by simpa using h2.1, fun r hr' => ?_⟩
    rw [List.mem_mapIdx] at hr'
    obtain ⟨i, hi, rfl⟩ := hr'
    have := h2.2 _ (List.getElem_mem hi)
    split
    · rw [List.length_zipWith, this, hr, min_self]
    · exact this

theorem cell_zipWith {t : List (List Nat)} {n m : Nat} (h : Shape t n m) (p : Nat → Bool) {row : List Nat} (hr : row.length = m)
    {b j : Nat} (hb : b < n) (hj : j < m) :
    cell (t.mapIdx (fun i r => if p i then List.zipWith (· + ·) r row else r)) b j = cell t b j + if p b then row.getD j 0 else 0 := by
  unfold cell
  have hb' : b < t.length := by rw [h.1]; exact hb
  have hrow := h.2 _ (List.getElem_mem hb')
  rw [List.getD_eq_getElem (t.mapIdx _) _ (by simpa using hb'), List.getElem_mapIdx, List.getD_eq_getElem t _ hb']
  by_cases hp : p b
  · rw [if_pos hp, if_pos hp, List.getD_eq_getElem _ _ (by rw [List.length_zipWith, hrow, hr]; omega), List.getElem_zipWith,
      List.getD_eq_getElem _ _ (by omega), List.getD_eq_getElem _ _ (by omega)]
  · rw [if_neg hp, if_neg hp, add_zero]

/-- The loop over the bins. -/
theorem addRowsLoop {n m : Nat} (H : Nat → List Nat) (hH : ∀ b, (H b).length = m) (bs : List Nat) {lr : List (List Nat) × List (List Nat)}
    (h1 : Shape lr.1 n m) (h2 : Shape lr.2 n m) :
    Shape (bs.foldl (fun lr b => addRow lr b (H b)) lr).1 n m ∧ Shape (bs.foldl (fun lr b => addRow lr b (H b)) lr).2 n m ∧
    ∀ b j, b < n → j < m →
      cell (bs.foldl (fun lr b => addRow lr b (H b)) lr).1 b j = cell lr.1 b j + ((bs.filter (fun i => decide (i ≤ b))).map (fun i => (H i).getD j 0)).sum ∧
      cell (bs.foldl (fun lr b => addRow lr b (H b)) lr).2 b j = cell lr.2 b j + ((bs.filter (fun i => decide (b < i))).map (fun i => (H i).getD j 0)).sum := by
  induction bs generalizing lr with
  | nil => exact ⟨h1, h2, fun b j _ _ => by simp⟩
  | cons a bs ih =>
    obtain ⟨s1, s2⟩ := shape_addRow h1 h2 a (hH a)
    obtain ⟨i1, i2, i3⟩ := ih s1 s2
    rw [List.foldl_cons]
    refine ⟨i1, i2, fun b j hb hj => ?_⟩
    obtain ⟨e1, e2⟩ := i3 b j hb hj
    rw [e1, e2]
    have c1 := cell_zipWith h1 (fun i => decide (a ≤ i)) (hH a) hb hj
    have c2 := cell_zipWith h2 (fun i => decide (i < a)) (hH a) hb hj
    simp only [decide_eq_true_eq] at c1 c2
    have d1 : cell (addRow lr a (H a)).1 b j = cell lr.1 b j + if a ≤ b then (H a).getD j 0 else 0 := c1
    have d2 : cell (addRow lr a (H a)).2 b j = cell lr.2 b j + if b < a then (H a).getD j 0 else 0 := c2
    rw [d1, d2, List.filter_cons, List.filter_cons]
    constructor
    · by_cases h : a ≤ b
      · simp only [h, if_true, decide_true, List.map_cons, List.sum_cons]; omega
      · simp [h]
    · by_cases h : b < a
      · simp only [h, if_true, decide_true, List.map_cons, List.sum_cons]; omega
      · simp [h]

theorem sum_countP {α : Type} (S : List α) (key : α → Nat) (q : α → Bool) (is : List Nat) (hn : is.Nodup) :
    (is.map (fun i => S.countP (fun s => decide (key s = i) && q s))).sum = S.countP (fun s => decide (key s ∈ is) && q s) := by
  induction is with
  | nil => simp
  | cons i is ih =>
    rw [List.nodup_cons] at hn
    rw [List.map_cons, List.sum_cons, ih hn.2]
    clear ih
    induction S with
    | nil => rfl
    | cons s S ihS =>
      simp only [List.countP_cons]
      by_cases hq : q s
      · by_cases h1 : key s = i
        · have : key s ∉ is := by rw [h1]; exact hn.1
          simp only [h1, hq] at *
          simp [hn.1]
          simp at ihS
          omega
        · by_cases h2 : key s ∈ is <;> simp [h1, h2, hq] at * <;> omega
      · simp [hq] at *
        omega

theorem shape_ext_cell {t u : List (List Nat)} {n m : Nat} (ht : Shape t n m) (hu : Shape u n m)
    (h : ∀ b j, b < n → j < m → cell t b j = cell u b j) : t = u := by
  apply List.ext_getElem (by rw [ht.1, hu.1])
  intro b hb hb'
  have hbn : b < n := by rw [← ht.1]; exact hb
  have l1 := ht.2 _ (List.getElem_mem hb)
  have l2 := hu.2 _ (List.getElem_mem hb')
  apply List.ext_getElem (by rw [l1, l2])
  intro j hj hj'
  have := h b j hbn (by omega)
  unfold cell at this
  rwa [List.getD_eq_getElem t _ hb, List.getD_eq_getElem u _ hb', List.getD_eq_getElem _ _ hj, List.getD_eq_getElem _ _ hj'] at this

theorem getBin_le (h : Hist K) (edges : List K) (he : edges.length = h.numBins) (v : K) : h.getBin edges v ≤ h.numBins := by
  unfold Hist.getBin
  split_ifs with h1 h2
  · omega
  · simp only []
    split_ifs <;> omega
  · unfold searchsorted
    rw [← he]
    exact List.length_filter_le _ _

/-- The tables have one row per bin and one column per class. -/
def TablesOK (h : Hist K) : Prop := h.isCls = true ∧ (h.edges ≠ none → Shape h.left h.numBins h.classes.length ∧ Shape h.right h.numBins h.classes.length)

theorem TablesOK.of_init {R : Rng K G} {g g' : G} {f : Nat} {uf : Option (DiscVals K)} {fData classes : List K} {nb : Nat}
    {lo hi : K} {bt : BinType} {h : Hist K} (hi : Hist.init R g true f uf fData classes nb lo hi bt = .ok (h, g')) : TablesOK h := by
  unfold Hist.init at hi
  split at hi
  · cases hi
  · cases hi
    exact ⟨rfl, fun _ => ⟨shape_replicate _ _, shape_replicate _ _⟩⟩

theorem TablesOK.add {h h' : Hist K} {X : List (List K)} {Y : List K} (ht : TablesOK h) (ha : h.add X Y = .ok h') :
    TablesOK h' ∧ h'.classes = h.classes := by
  cases he : h.edges with
  | none =>
    unfold Hist.add at ha
    split at ha
    · cases ha
    · rw [he] at ha; cases ha
  | some e =>
    obtain ⟨_, _, _, lr, hlr, rfl⟩ := add_cls_ok ht.1 he ha
    obtain ⟨s1, s2⟩ := ht.2 (by rw [he]; simp)
    refine ⟨⟨ht.1, fun _ => ?_⟩, rfl⟩
    rw [hlr]
    exact foldl_addOne_shape _ s1 s2

theorem idxOf_map_inj {α β : Type} [DecidableEq α] [DecidableEq β] {f : α → β} (hf : Function.Injective f) (l : List α) (a : α) :
    (l.map f).idxOf (f a) = l.idxOf a := by
  induction l with
  | nil => rfl
  | cons b l ih =>
    rw [List.map_cons, List.idxOf_cons, List.idxOf_cons, ih]
    by_cases h : b = a
    · subst h; simp
    · have : f b ≠ f a := fun e => h (hf e)
      rw [beq_false_of_ne h, beq_false_of_ne this]

/-- One vectorised insertion equals one scalar insertion. -/
theorem addVec_eq {h : Hist K} {X : List (List K)} {ks ys : List Nat} (ht : TablesOK h)
    (hk : h.classes = ks.map (fun (n : Nat) => (n : K))) (hn : ks.Nodup) (hy : ∀ y ∈ ys, y ∈ ks) (hne : ys ≠ []) :
    h.addVec X (ys.map (fun (n : Nat) => (n : K))) = h.add X (ys.map (fun (n : Nat) => (n : K))) := by
  have hinj : Function.Injective (fun (n : Nat) => (n : K)) := Nat.cast_injective
  have hidx : ∀ y ∈ ys, h.classes.idxOf (y : K) = ks.idxOf y := by
    intro y _
    rw [hk]
    exact idxOf_map_inj hinj ks y
  have hclass : classIdxE h.classes (ys.map (fun (n : Nat) => (n : K))) = .ok (ys.map (fun y => ks.idxOf y)) := by
    unfold classIdxE
    rw [if_neg (by simpa using hne), if_pos]
    · rw [List.map_map]
      congr 1
      apply List.map_congr_left
      intro y hyy
      exact hidx y hyy
    · rw [List.all_eq_true]
      intro c hc
      obtain ⟨y, hyy, rfl⟩ := List.mem_map.1 hc
      rw [hk]
      simpa using hy y hyy
  have hksne : ks ≠ [] := by
    rintro rfl
    obtain ⟨y, hyy⟩ := List.exists_mem_of_ne_nil _ hne
    exact absurd (hy y hyy) (by simp)
  have hrep : replaceArray h.classes (ys.map (fun (n : Nat) => (n : K))) = .ok (ys.map (fun y => ks.idxOf y)) := by
    rw [hk]
    exact replaceArray_nat ks ys hn hksne hy
  have hlt : ∀ z ∈ ys.map (fun y => ks.idxOf y), z < h.classes.length := by
    intro z hz
    obtain ⟨y, hyy, rfl⟩ := List.mem_map.1 hz
    rw [hk, List.length_map]
    exact List.idxOf_lt_length_of_mem (hy y hyy)
  have hkpos : 0 < h.classes.length := by
    rw [hk, List.length_map]
    exact List.length_pos_iff.2 hksne
  unfold Hist.addVec Hist.add
  rw [if_pos ht.1]
  cases hcol : colE X h.featureIdx with
  | error e => rfl
  | ok fvals =>
    simp only []
    cases he : h.edges with
    | none => rfl
    | some edges =>
      simp only [ht.1, if_true]
      by_cases hshape : edges.length = h.left.length ∧ h.left.length = h.right.length ∧ h.right.length = h.numBins
      swap
      · rw [if_pos hshape, if_pos hshape]
      rw [if_neg (not_not.2 hshape), if_neg (not_not.2 hshape)]
      by_cases hXY : X.length ≠ (ys.map (fun (n : Nat) => (n : K))).length
      · rw [if_pos hXY, if_pos hXY]
      rw [if_neg hXY, if_neg hXY, hrep, hclass]
      simp only []
      obtain ⟨s1, s2⟩ := ht.2 (by rw [he]; simp)
      set bins := fvals.map (h.getBin edges) with hbins
      set newY := ys.map (fun y => ks.idxOf y) with hnewY
      set m := h.classes.length with hm
      have hrow : ∀ b, (binRow m bins newY b).length = m := by
        intro b
        rw [binRow_eq hkpos hlt, List.length_map, List.length_range]
      rw [if_pos]
      swap
      · rw [List.all_eq_true]
        intro r hr
        obtain ⟨b, _, rfl⟩ := List.mem_map.1 hr
        simpa using hrow b
      have hfold : (List.range (h.numBins + 1)).foldl
          (fun lr b => addRow lr b (((List.range (h.numBins + 1)).map (binRow m bins newY)).getD b [])) (h.left, h.right)
          = (List.range (h.numBins + 1)).foldl (fun lr b => addRow lr b (binRow m bins newY b)) (h.left, h.right) := by
        apply List.foldl_ext
        intro lr b hb
        rw [List.mem_range] at hb
        rw [List.getD_eq_getElem _ _ (by simpa using hb), List.getElem_map, List.getElem_range]
      rw [hfold]
      obtain ⟨v1, v2, v3⟩ := addRowsLoop (binRow m bins newY) hrow (List.range (h.numBins + 1)) (lr := (h.left, h.right)) s1 s2
      have hS : ∀ s ∈ bins.zip newY, s.2 < m := fun s hs => hlt _ (List.of_mem_zip hs).2
      have hSb : ∀ s ∈ bins.zip newY, s.1 ≤ h.numBins := by
        intro s hs
        have := (List.of_mem_zip hs).1
        rw [hbins] at this
        obtain ⟨v, _, hv⟩ := List.mem_map.1 this
        rw [← hv]
        exact getBin_le h edges (by omega) v
      obtain ⟨w1, w2⟩ := foldl_addOne_shape (lr := (h.left, h.right)) (bins.zip newY) s1 s2
      have hget : ∀ i j, j < m → (binRow m bins newY i).getD j 0 = (bins.zip newY).countP (fun s => decide (s.1 = i) && decide (s.2 = j)) := by
        intro i j hj
        rw [binRow_eq hkpos hlt, List.getD_eq_getElem _ _ (by simpa using hj), List.getElem_map, List.getElem_range]
        congr 1
        funext s
        simp
      have e1 : ((List.range (h.numBins + 1)).foldl (fun lr b => addRow lr b (binRow m bins newY b)) (h.left, h.right)).1
          = ((bins.zip newY).foldl addOne (h.left, h.right)).1 := by
        apply shape_ext_cell v1 w1
        intro b j hb hj
        rw [(v3 b j hb hj).1, (foldl_addOne_cell _ hS s1 s2 b j hb).1]
        congr 1
        rw [List.map_congr_left (fun i _ => hget i j hj), sum_countP _ _ _ _ (List.nodup_range.filter _)]
        unfold nLe
        apply List.countP_congr
        intro s hs
        have := hSb s hs
        simp only [Bool.and_eq_true, decide_eq_true_eq, List.mem_filter, List.mem_range]
        constructor
        · rintro ⟨⟨_, h1⟩, h2⟩; exact ⟨h1, h2⟩
        · rintro ⟨h1, h2⟩; exact ⟨⟨by omega, h1⟩, h2⟩
      have e2 : ((List.range (h.numBins + 1)).foldl (fun lr b => addRow lr b (binRow m bins newY b)) (h.left, h.right)).2
          = ((bins.zip newY).foldl addOne (h.left, h.right)).2 := by
        apply shape_ext_cell v2 w2
        intro b j hb hj
        rw [(v3 b j hb hj).2, (foldl_addOne_cell _ hS s1 s2 b j hb).2]
        congr 1
        rw [List.map_congr_left (fun i _ => hget i j hj), sum_countP _ _ _ _ (List.nodup_range.filter _)]
        unfold nGt
        apply List.countP_congr
        intro s hs
        have := hSb s hs
        simp only [Bool.and_eq_true, decide_eq_true_eq, List.mem_filter, List.mem_range]
        constructor
        · rintro ⟨⟨_, h1⟩, h2⟩; exact ⟨h1, h2⟩
        · rintro ⟨h1, h2⟩; exact ⟨⟨by omega, h1⟩, h2⟩
      rw [e1, e2]

end FF
