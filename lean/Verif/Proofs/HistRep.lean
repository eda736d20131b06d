import Verif.Proofs.Hist
import Verif.Spec.Hist
import Mathlib.Algebra.Order.BigOperators.Group.List

/-! # What a histogram contains after a sequence of insertions -/

set_option linter.unusedSectionVars false

namespace FF

open Spec

variable {K : Type} [Field K] [LinearOrder K] [IsStrictOrderedRing K] [FloorRing K] {G : Type}

/-- A classification histogram with edges `edges` that contains exactly the samples `S`. -/
structure ClsRep (h : Hist K) (edges : List K) (S : List (K × K)) : Prop where
  isCls : h.isCls = true
  edges_eq : h.edges = some edges
  good : GoodBins h edges
  nodup : h.classes.Nodup
  shapeL : Shape h.left h.numBins h.classes.length
  shapeR : Shape h.right h.numBins h.classes.length
  labels : ∀ s ∈ S, s.2 ∈ h.classes
  left : ∀ b (hb : b < edges.length) j (hj : j < h.classes.length),
    cell h.left b j = countLe S edges[b] h.classes[j]
  right : ∀ b (hb : b < edges.length) j (hj : j < h.classes.length),
    cell h.right b j = countGt S edges[b] h.classes[j]

theorem colE_ok {X : List (List K)} {f : Nat} {col : List K} (h : colE X f = .ok col) :
    col = X.map (fun row => row.getD f 0) ∧ ∀ row ∈ X, f < row.length := by
  unfold colE at h
  split at h
  · next hall =>
    cases h
    exact ⟨rfl, by simpa using hall⟩
  · cases h

theorem takeE_ok {α : Type} {a : List α} {d : α} {idcs : List Nat} {r : List α} (h : takeE a d idcs = .ok r) :
    r = idcs.map (fun i => a.getD i d) ∧ ∀ i ∈ idcs, i < a.length := by
  unfold takeE at h
  split at h
  · next hall =>
    cases h
    exact ⟨rfl, by simpa using hall⟩
  · cases h

theorem classIdxE_ok {classes ys : List K} {r : List Nat} (h : classIdxE classes ys = .ok r) :
    r = ys.map (fun y => classes.idxOf y) ∧ ys ≠ [] ∧ ∀ y ∈ ys, y ∈ classes := by
  unfold classIdxE at h
  split at h
  · cases h
  · next hne =>
    split at h
    · next hall =>
      cases h
      exact ⟨rfl, hne, by simpa using hall⟩
    · cases h

theorem countP_zip_map {α β γ δ : Type} (xs : List α) (ys : List β) (f : α → γ) (g : β → δ) (p : γ × δ → Bool) :
    ((xs.map f).zip (ys.map g)).countP p = (xs.zip ys).countP (fun q => p (f q.1, g q.2)) := by
  rw [List.zip_map, List.countP_map]
  rfl

theorem countLe_append (S T : List (K × K)) (t c : K) : countLe (S ++ T) t c = countLe S t c + countLe T t c := by
  simp [countLe]

theorem countGt_append (S T : List (K × K)) (t c : K) : countGt (S ++ T) t c = countGt S t c + countGt T t c := by
  simp [countGt]

/-- What a successful `add` on a classification histogram does. -/
theorem add_cls_ok {h h' : Hist K} {X : List (List K)} {Y : List K} {edges : List K} (hc : h.isCls = true)
    (he : h.edges = some edges) (hadd : h.add X Y = .ok h') :
    X.length = Y.length ∧ (∀ row ∈ X, h.featureIdx < row.length) ∧ (∀ y ∈ Y, y ∈ h.classes) ∧
    ∃ lr, lr = ((((X.map (fun row => row.getD h.featureIdx 0)).map (h.getBin edges)).zip
        (Y.map (fun y => h.classes.idxOf y))).foldl addOne (h.left, h.right)) ∧
      h' = { h with left := lr.1, right := lr.2 } := by
  unfold Hist.add at hadd
  split at hadd
  · cases hadd
  · next fvals hf =>
    obtain ⟨rfl, hrow⟩ := colE_ok hf
    rw [he] at hadd
    simp only [hc, if_true] at hadd
    split_ifs at hadd with h1 h2
    split at hadd
    · cases hadd
    · next newY hy =>
      obtain ⟨rfl, _, hall⟩ := classIdxE_ok hy
      cases hadd
      exact ⟨by simpa using h2, hrow, hall, _, rfl, by rw [hc, he]⟩

theorem ClsRep.add {h h' : Hist K} {edges : List K} {S : List (K × K)} {X : List (List K)} {Y : List K}
    (hr : ClsRep h edges S) (hadd : h.add X Y = .ok h') :
    ClsRep h' edges (S ++ batchSamples h.featureIdx (X, Y)) ∧ h'.featureIdx = h.featureIdx ∧ h'.classes = h.classes
      ∧ h'.numBins = h.numBins := by
  obtain ⟨hlen, _, hY, lr, hlr, rfl⟩ := add_cls_ok hr.isCls hr.edges_eq hadd
  refine ⟨?_, rfl, rfl, rfl⟩
  set T := (((X.map (fun row => row.getD h.featureIdx 0)).map (h.getBin edges)).zip
        (Y.map (fun y => h.classes.idxOf y))) with hT
  have hTlt : ∀ s ∈ T, s.2 < h.classes.length := by
    intro s hs
    have := List.of_mem_zip (a := s.1) (b := s.2) (by rw [hT] at hs; exact hs)
    obtain ⟨y, hy, hyy⟩ := List.mem_map.1 this.2
    rw [← hyy]
    exact List.idxOf_lt_length_of_mem (hY y hy)
  have hsh := foldl_addOne_shape T (lr := (h.left, h.right)) hr.shapeL hr.shapeR
  rw [← hlr] at hsh
  have hidx : ∀ (y : K) (j : Nat) (hj : j < h.classes.length), y ∈ h.classes → (h.classes.idxOf y = j ↔ y = h.classes[j]) := by
    intro y j hj hy
    constructor
    · rintro rfl; simp
    · rintro rfl; exact hr.nodup.idxOf_getElem j hj
  have hmem : ∀ q ∈ (X.map (fun row => row.getD h.featureIdx 0)).zip Y, q.2 ∈ h.classes := by
    intro q hq
    exact hY _ (List.of_mem_zip (a := q.1) (b := q.2) hq).2
  constructor
  · exact hr.isCls
  · exact hr.edges_eq
  · exact hr.good
  · exact hr.nodup
  · exact hsh.1
  · exact hsh.2
  · intro s hs
    rcases List.mem_append.1 hs with hs | hs
    · exact hr.labels s hs
    · exact hmem s hs
  · intro b hb j hj
    have hc := foldl_addOne_cell T hTlt (lr := (h.left, h.right)) hr.shapeL hr.shapeR b j (by rw [← hr.good.1]; exact hb)
    rw [← hlr] at hc
    show cell lr.1 b j = _
    rw [hc.1, countLe_append]
    congr 1
    · exact hr.left b hb j hj
    · unfold nLe countLe batchSamples
      rw [hT, List.map_map, countP_zip_map, List.zip_map_left, List.countP_map]
      apply List.countP_congr
      intro q hq
      have hq2 := hY _ (List.of_mem_zip (a := q.1) (b := q.2) hq).2
      simp only [Function.comp, Prod.map, id, decide_eq_true_eq]
      rw [hr.good.2 _ b hb, hidx _ j hj hq2]
  · intro b hb j hj
    have hc := foldl_addOne_cell T hTlt (lr := (h.left, h.right)) hr.shapeL hr.shapeR b j (by rw [← hr.good.1]; exact hb)
    rw [← hlr] at hc
    show cell lr.2 b j = _
    rw [hc.2, countGt_append]
    congr 1
    · exact hr.right b hb j hj
    · unfold nGt countGt batchSamples
      rw [hT, List.map_map, countP_zip_map, List.zip_map_left, List.countP_map]
      apply List.countP_congr
      intro q hq
      have hq2 := hY _ (List.of_mem_zip (a := q.1) (b := q.2) hq).2
      simp only [Function.comp, Prod.map, id, decide_eq_true_eq]
      rw [← not_le, ← not_le (a := q.1.getD h.featureIdx 0), hr.good.2 _ b hb, hidx _ j hj hq2]

/-- A pile that holds the number and the mean of `ys`. -/
structure PileRep (p : Pile K) (ys : List K) : Prop where
  n : p.n = ys.length
  mean : p.mean = Spec.mean ys
  var : 0 ≤ p.var
  zero : ys = [] → p = Pile.zero

theorem npVar_eq (ys : List K) : npVar ys = Spec.variance ys := by
  simp [npVar, Spec.variance, Spec.mean, npMean, pow_two]

theorem variance_nonneg (ys : List K) : 0 ≤ Spec.variance ys := by
  unfold Spec.variance Spec.mean
  apply div_nonneg
  · apply List.sum_nonneg
    intro x hx
    obtain ⟨y, _, rfl⟩ := List.mem_map.1 hx
    positivity
  · positivity

theorem welford_nonneg (n1 n2 : Nat) (m1 m2 v1 v2 : K) (h1 : 0 ≤ v1) (h2 : 0 ≤ v2) : 0 ≤ welford n1 m1 v1 n2 m2 v2 := by
  unfold welford
  split
  · exact h2
  · split
    · exact h1
    · simp only []
      have : 0 ≤ (m1 - m2) * (m1 - m2) := mul_self_nonneg _
      positivity

theorem sum_eq_mean (ys : List K) : (ys.length : K) * Spec.mean ys = ys.sum := by
  unfold Spec.mean
  rcases eq_or_ne ys [] with rfl | h
  · simp
  · have : (ys.length : K) ≠ 0 := by
      have := List.length_pos_iff.2 h
      positivity
    field_simp

theorem pileRep_zero : PileRep (Pile.zero : Pile K) [] := by
  constructor <;> simp [Pile.zero, Spec.mean]

theorem PileRep.update {p : Pile K} {ys : List K} (h : PileRep p ys) (cur : List K) :
    PileRep (updateBins p cur) (ys ++ cur) := by
  unfold updateBins
  split
  · next hl =>
    rw [List.length_eq_zero_iff.1 hl, List.append_nil]
    exact h
  · next hl =>
    have hcur : cur ≠ [] := fun hh => hl (by simp [hh])
    refine ⟨by simp [h.n], ?_, welford_nonneg _ _ _ _ _ _ h.var (by rw [npVar_eq]; exact variance_nonneg _), ?_⟩
    · simp only []
      rw [h.n, h.mean, show npMean cur = Spec.mean cur from rfl, sum_eq_mean, sum_eq_mean]
      simp [Spec.mean]
    · intro hh
      simp [hcur] at hh

theorem update_zero_var (cur : List K) : (updateBins Pile.zero cur).var = Spec.variance cur := by
  unfold updateBins
  split
  · next hl =>
    rw [List.length_eq_zero_iff.1 hl]
    simp [Pile.zero, Spec.variance, Spec.mean]
  · simp [Pile.zero, welford, npVar_eq]

/-- A regression histogram with edges `edges` into which exactly the samples `S` were inserted. -/
structure RegRep (h : Hist K) (edges : List K) (S : List (K × K)) : Prop where
  isReg : h.isCls = false
  edges_eq : h.edges = some edges
  good : GoodBins h edges
  lenL : h.leftPile.length = h.numBins
  lenR : h.rightPile.length = h.numBins
  left : ∀ b (hb : b < edges.length), PileRep (h.leftPile.getD b Pile.zero) (labelsLe S edges[b])
  right : ∀ b (hb : b < edges.length), PileRep (h.rightPile.getD b Pile.zero) (labelsGt S edges[b])
  curr : PileRep h.currPile (S.map Prod.snd)
  onlyL : ∀ b (hb : b < edges.length), labelsGt S edges[b] = [] → h.leftPile.getD b Pile.zero = h.currPile
  onlyR : ∀ b (hb : b < edges.length), labelsLe S edges[b] = [] → h.rightPile.getD b Pile.zero = h.currPile

/-- The stored variances are the true ones. -/
structure ExactVar (h : Hist K) (edges : List K) (S : List (K × K)) : Prop where
  left : ∀ b (hb : b < edges.length), (h.leftPile.getD b Pile.zero).var = variance (labelsLe S edges[b])
  right : ∀ b (hb : b < edges.length), (h.rightPile.getD b Pile.zero).var = variance (labelsGt S edges[b])
  curr : h.currPile.var = variance (S.map Prod.snd)

/-- What a successful `add` on a regression histogram does. -/
theorem add_reg_ok {h h' : Hist K} {X : List (List K)} {Y : List K} {edges : List K} (hc : h.isCls = false)
    (he : h.edges = some edges) (hadd : h.add X Y = .ok h') :
    X.length = Y.length ∧ (∀ row ∈ X, h.featureIdx < row.length) ∧
    ∃ bins, bins = (X.map (fun row => row.getD h.featureIdx 0)).map (h.getBin edges) ∧
      h' = { h with
            leftPile := h.leftPile.mapIdx (fun b p => updateBins p (maskSel bins Y (fun i => decide (i ≤ b))))
            rightPile := h.rightPile.mapIdx (fun b p => updateBins p (maskSel bins Y (fun i => decide (b < i))))
            currPile := updateBins h.currPile Y } := by
  unfold Hist.add at hadd
  split at hadd
  · cases hadd
  · next fvals hf =>
    obtain ⟨rfl, hrow⟩ := colE_ok hf
    rw [he] at hadd
    simp only [hc, Bool.false_eq_true, if_false] at hadd
    split_ifs at hadd with h1 h2
    cases hadd
    exact ⟨by simpa using h2, hrow, _, rfl, by rw [he, hc]⟩

theorem labelsLe_append (S T : List (K × K)) (t : K) : labelsLe (S ++ T) t = labelsLe S t ++ labelsLe T t := by
  simp [labelsLe]

theorem labelsGt_append (S T : List (K × K)) (t : K) : labelsGt (S ++ T) t = labelsGt S t ++ labelsGt T t := by
  simp [labelsGt]

theorem maskSel_le {h : Hist K} {edges : List K} (hg : GoodBins h edges) (xs Y : List K) (b : Nat) (hb : b < edges.length) :
    maskSel (xs.map (h.getBin edges)) Y (fun i => decide (i ≤ b)) = labelsLe (xs.zip Y) edges[b] := by
  unfold maskSel labelsLe
  rw [List.zip_map_left, List.filter_map, List.map_map]
  have hf : ((fun q : Nat × K => decide (q.1 ≤ b)) ∘ Prod.map (h.getBin edges) id)
      = (fun s : K × K => decide (s.1 ≤ edges[b])) := by
    funext q
    simp only [Function.comp, Prod.map, decide_eq_decide]
    exact hg.2 _ b hb
  rw [hf]
  rfl

theorem maskSel_gt {h : Hist K} {edges : List K} (hg : GoodBins h edges) (xs Y : List K) (b : Nat) (hb : b < edges.length) :
    maskSel (xs.map (h.getBin edges)) Y (fun i => decide (b < i)) = labelsGt (xs.zip Y) edges[b] := by
  unfold maskSel labelsGt
  rw [List.zip_map_left, List.filter_map, List.map_map]
  have hf : ((fun q : Nat × K => decide (b < q.1)) ∘ Prod.map (h.getBin edges) id)
      = (fun s : K × K => decide (edges[b] < s.1)) := by
    funext q
    simp only [Function.comp, Prod.map, decide_eq_decide]
    rw [← not_le, hg.2 _ b hb, not_le]
  rw [hf]
  rfl

theorem labelsLe_eq_all {S : List (K × K)} {t : K} (h : labelsGt S t = []) : labelsLe S t = S.map Prod.snd := by
  unfold labelsGt at h
  unfold labelsLe
  rw [List.map_eq_nil_iff, List.filter_eq_nil_iff] at h
  rw [List.filter_eq_self.2]
  intro a ha
  simpa using h a ha

theorem labelsGt_eq_all {S : List (K × K)} {t : K} (h : labelsLe S t = []) : labelsGt S t = S.map Prod.snd := by
  unfold labelsLe at h
  unfold labelsGt
  rw [List.map_eq_nil_iff, List.filter_eq_nil_iff] at h
  rw [List.filter_eq_self.2]
  intro a ha
  simpa using h a ha

theorem getD_mapIdx {α β : Type} (l : List α) (f : Nat → α → β) (b : Nat) (hb : b < l.length) (d : α) (d' : β) :
    (l.mapIdx f).getD b d' = f b (l.getD b d) := by
  rw [List.getD_eq_getElem _ _ (by simpa using hb), List.getD_eq_getElem _ _ hb]
  simp

theorem RegRep.add {h h' : Hist K} {edges : List K} {S : List (K × K)} {X : List (List K)} {Y : List K}
    (hr : RegRep h edges S) (hadd : h.add X Y = .ok h') :
    RegRep h' edges (S ++ batchSamples h.featureIdx (X, Y)) ∧ h'.featureIdx = h.featureIdx
      ∧ h'.numBins = h.numBins ∧ (S = [] → ExactVar h' edges (batchSamples h.featureIdx (X, Y))) := by
  obtain ⟨hlen, _, bins, hbins, rfl⟩ := add_reg_ok hr.isReg hr.edges_eq hadd
  have hsnd : (batchSamples h.featureIdx (X, Y)).map Prod.snd = Y := by
    unfold batchSamples
    exact List.map_snd_zip (by simp [hlen])
  have hlb : ∀ b (hb : b < edges.length), b < h.numBins := fun b hb => by rw [← hr.good.1]; exact hb
  have hL : ∀ b (hb : b < edges.length),
      (h.leftPile.mapIdx (fun b p => updateBins p (maskSel bins Y (fun i => decide (i ≤ b))))).getD b Pile.zero
        = updateBins (h.leftPile.getD b Pile.zero) (labelsLe (batchSamples h.featureIdx (X, Y)) edges[b]) := by
    intro b hb
    rw [getD_mapIdx _ _ _ (by rw [hr.lenL]; exact hlb b hb) Pile.zero, hbins, maskSel_le hr.good _ _ b hb]
    rfl
  have hR : ∀ b (hb : b < edges.length),
      (h.rightPile.mapIdx (fun b p => updateBins p (maskSel bins Y (fun i => decide (b < i))))).getD b Pile.zero
        = updateBins (h.rightPile.getD b Pile.zero) (labelsGt (batchSamples h.featureIdx (X, Y)) edges[b]) := by
    intro b hb
    rw [getD_mapIdx _ _ _ (by rw [hr.lenR]; exact hlb b hb) Pile.zero, hbins, maskSel_gt hr.good _ _ b hb]
    rfl
  refine ⟨?_, rfl, rfl, ?_⟩
  · constructor
    · exact hr.isReg
    · exact hr.edges_eq
    · exact hr.good
    · simpa using hr.lenL
    · simpa using hr.lenR
    · intro b hb
      rw [labelsLe_append]
      show PileRep ((List.mapIdx _ _).getD b Pile.zero) _
      rw [hL b hb]
      exact (hr.left b hb).update _
    · intro b hb
      rw [labelsGt_append]
      show PileRep ((List.mapIdx _ _).getD b Pile.zero) _
      rw [hR b hb]
      exact (hr.right b hb).update _
    · rw [List.map_append, hsnd]
      exact hr.curr.update _
    · intro b hb he
      rw [labelsGt_append, List.append_eq_nil_iff] at he
      show (List.mapIdx _ _).getD b Pile.zero = updateBins h.currPile Y
      rw [hL b hb, hr.onlyL b hb he.1, labelsLe_eq_all he.2, hsnd]
    · intro b hb he
      rw [labelsLe_append, List.append_eq_nil_iff] at he
      show (List.mapIdx _ _).getD b Pile.zero = updateBins h.currPile Y
      rw [hR b hb, hr.onlyR b hb he.1, labelsGt_eq_all he.2, hsnd]
  · intro hS
    subst hS
    constructor
    · intro b hb
      show ((List.mapIdx _ _).getD b Pile.zero).var = _
      rw [hL b hb, (hr.left b hb).zero rfl, update_zero_var]
    · intro b hb
      show ((List.mapIdx _ _).getD b Pile.zero).var = _
      rw [hR b hb, (hr.right b hb).zero rfl, update_zero_var]
    · show (updateBins h.currPile Y).var = _
      rw [hr.curr.zero rfl, update_zero_var, hsnd]

/-! ### Construction -/

theorem takeE_sorted {vals r : List K} {idcs : List Nat} (hv : vals.Pairwise (· ≤ ·)) (hi : idcs.Pairwise (· ≤ ·))
    (h : takeE vals 0 idcs = .ok r) : r.Pairwise (· ≤ ·) := by
  obtain ⟨rfl, hlt⟩ := takeE_ok h
  rw [List.pairwise_map]
  refine hi.imp_of_mem ?_
  intro a b ha hb hab
  rw [List.getD_eq_getElem _ _ (hlt a ha), List.getD_eq_getElem _ _ (hlt b hb)]
  rcases hab.lt_or_eq with h | rfl
  · exact List.pairwise_iff_getElem.1 hv _ _ _ _ h
  · rfl

theorem makeEdges_good {R : Rng K G} {g g' : G} {bt : BinType} {uf : Option (DiscVals K)} {fData : List K} {nb nb' : Nat}
    {lo hi : K} {edges : List K} (ha : BinArgs bt uf nb lo hi)
    (h : makeEdges R g bt uf fData nb lo hi = .ok (some edges, nb', g'))
    {isCls : Bool} {f : Nat} {classes : List K} :
    GoodBins (Hist.mk' isCls f classes bt lo hi (some edges) nb') edges := by
  unfold makeEdges at h
  cases bt with
  | linear =>
    simp only [] at h
    split at h
    · cases h
    · next hne =>
      cases h
      exact goodBins_linear (h := Hist.mk' isCls f classes .linear lo hi (some _) nb) rfl (ha.linear rfl).2
        (lt_of_le_of_ne (ha.linear rfl).1 hne)
  | discrete =>
    simp only [] at h
    split at h
    · cases h
    · next u =>
      split at h
      · cases h
      · next es hes =>
        cases h
        unfold discreteBin at hes
        split_ifs at hes
        have hl : edges.length = nb := by
          rw [(takeE_ok hes).1]; simp
        refine goodBins_search (by simp [Hist.mk']) hl (takeE_sorted (ha.discrete rfl u rfl) ?_ hes)
        rw [List.pairwise_map]
        exact List.pairwise_lt_range.imp (fun hab => Nat.mul_le_mul_left _ hab.le)
  | identity =>
    cases h
    exact goodBins_search (by simp [Hist.mk']) rfl (npUnique_sorted _)
  | random =>
    cases h
    refine goodBins_search (by simp [Hist.mk']) ?_ (List.pairwise_insertionSort _ _)
    rw [List.length_insertionSort, R.uniform_length]
    rfl

theorem clsRep_mk' {f : Nat} {classes : List K} {bt : BinType} {lo hi : K} {edges : List K} {nb : Nat}
    (hg : GoodBins (Hist.mk' true f classes bt lo hi (some edges) nb) edges) (hc : classes.Nodup) :
    ClsRep (Hist.mk' true f classes bt lo hi (some edges) nb) edges [] := by
  constructor
  · rfl
  · rfl
  · exact hg
  · exact hc
  · exact shape_replicate _ _
  · exact shape_replicate _ _
  · simp
  · intro b hb j hj
    exact (cell_replicate _ _ _ _).trans (by simp [countLe])
  · intro b hb j hj
    exact (cell_replicate _ _ _ _).trans (by simp [countGt])

theorem getD_replicate_zero (n b : Nat) : (List.replicate n (Pile.zero : Pile K)).getD b Pile.zero = Pile.zero := by
  rcases lt_or_ge b n with h | h
  · rw [List.getD_eq_getElem _ _ (by simpa using h)]; simp
  · rw [List.getD_eq_default _ _ (by simpa using h)]

theorem regRep_of_zero {h : Hist K} {edges : List K} (h0 : h.isCls = false) (he : h.edges = some edges)
    (hg : GoodBins h edges) (hl : h.leftPile = List.replicate h.numBins Pile.zero)
    (hr : h.rightPile = List.replicate h.numBins Pile.zero) (hc : h.currPile = Pile.zero) : RegRep h edges [] := by
  have e1 : ∀ b, h.leftPile.getD b Pile.zero = Pile.zero := fun b => by rw [hl, getD_replicate_zero]
  have e2 : ∀ b, h.rightPile.getD b Pile.zero = Pile.zero := fun b => by rw [hr, getD_replicate_zero]
  constructor
  · exact h0
  · exact he
  · exact hg
  · rw [hl]; simp
  · rw [hr]; simp
  · intro b hb; rw [e1]; exact pileRep_zero
  · intro b hb; rw [e2]; exact pileRep_zero
  · rw [hc]; exact pileRep_zero
  · intro b hb _; rw [e1, hc]
  · intro b hb _; rw [e2, hc]

theorem clsRep_of_init {R : Rng K G} {g g' : G} {f : Nat} {uf : Option (DiscVals K)} {fData classes : List K} {nb : Nat}
    {lo hi : K} {bt : BinType} {h : Hist K} {edges : List K} (ha : BinArgs bt uf nb lo hi) (hc : classes.Nodup)
    (hi : Hist.init R g true f uf fData classes nb lo hi bt = .ok (h, g')) (he : h.edges = some edges) :
    ClsRep h edges [] := by
  unfold Hist.init at hi
  split at hi
  · cases hi
  · next es nb' g'' hm =>
    cases hi
    obtain rfl : es = some edges := he
    exact clsRep_mk' (makeEdges_good ha hm) hc

theorem regRep_of_init {R : Rng K G} {g g' : G} {f : Nat} {uf : Option (DiscVals K)} {fData classes : List K} {nb : Nat}
    {lo hi : K} {bt : BinType} {h : Hist K} {edges : List K} (ha : BinArgs bt uf nb lo hi)
    (hi : Hist.init R g false f uf fData classes nb lo hi bt = .ok (h, g')) (he : h.edges = some edges) :
    RegRep h edges [] := by
  unfold Hist.init at hi
  split at hi
  · cases hi
  · next es nb' g'' hm =>
    cases hi
    obtain rfl : es = some edges := he
    exact regRep_of_zero rfl rfl (makeEdges_good ha hm) rfl rfl rfl

/-- What `__init__` sets. -/
theorem init_fields {R : Rng K G} {g g' : G} {isCls : Bool} {f : Nat} {uf : Option (DiscVals K)} {fData classes : List K}
    {nb : Nat} {lo hi : K} {bt : BinType} {h : Hist K}
    (hi : Hist.init R g isCls f uf fData classes nb lo hi bt = .ok (h, g')) :
    h.featureIdx = f ∧ h.classes = classes ∧ h.isCls = isCls ∧ h.binType = bt := by
  unfold Hist.init at hi
  split at hi
  · cases hi
  · cases hi; exact ⟨rfl, rfl, rfl, rfl⟩

theorem ClsRep.addAll {h h' : Hist K} {edges : List K} {S : List (K × K)} (Bs : List (List (List K) × List K))
    (hr : ClsRep h edges S) (hadd : h.addAll Bs = .ok h') :
    ClsRep h' edges (S ++ samplesOf h.featureIdx Bs) ∧ h'.featureIdx = h.featureIdx ∧ h'.classes = h.classes
      ∧ h'.numBins = h.numBins := by
  induction Bs generalizing h S with
  | nil => cases hadd; simpa [samplesOf] using hr
  | cons B Bs ih =>
    unfold Hist.addAll at hadd
    split at hadd
    · cases hadd
    · next h1 hh =>
      obtain ⟨r1, e1, e2, e3⟩ := hr.add hh
      obtain ⟨r2, f1, f2, f3⟩ := ih r1 hadd
      refine ⟨?_, f1.trans e1, f2.trans e2, f3.trans e3⟩
      rw [e1, List.append_assoc] at r2
      simpa [samplesOf] using r2

theorem RegRep.addAll {h h' : Hist K} {edges : List K} {S : List (K × K)} (Bs : List (List (List K) × List K))
    (hr : RegRep h edges S) (hadd : h.addAll Bs = .ok h') :
    RegRep h' edges (S ++ samplesOf h.featureIdx Bs) ∧ h'.featureIdx = h.featureIdx ∧ h'.numBins = h.numBins := by
  induction Bs generalizing h S with
  | nil => cases hadd; simpa [samplesOf] using hr
  | cons B Bs ih =>
    unfold Hist.addAll at hadd
    split at hadd
    · cases hadd
    · next h1 hh =>
      obtain ⟨r1, e1, e2, _⟩ := hr.add hh
      obtain ⟨r2, f1, f2⟩ := ih r1 hadd
      refine ⟨?_, f1.trans e1, f2.trans e2⟩
      rw [e1, List.append_assoc] at r2
      simpa [samplesOf] using r2

end FF
