import Verif.Proofs.Criteria

/-! # What `get_impurity_reductions` computes from a histogram -/

set_option linter.unusedSectionVars false

namespace FF

open Spec

variable {K : Type} [Field K] [LinearOrder K] [IsStrictOrderedRing K] [FloorRing K] [NpFun K] {G : Type}

theorem countLe_eq (S : List (K × K)) (t c : K) : countLe S t c = (labelsLe S t).count c := by
  unfold countLe labelsLe
  rw [List.count, List.countP_map, List.countP_filter]
  apply List.countP_congr
  intro s _
  simp [and_comm]

theorem countGt_eq (S : List (K × K)) (t c : K) : countGt S t c = (labelsGt S t).count c := by
  unfold countGt labelsGt
  rw [List.count, List.countP_map, List.countP_filter]
  apply List.countP_congr
  intro s _
  simp [and_comm]

theorem row_eq {t : List (List Nat)} {n b : Nat} {classes ys : List K} (hs : Shape t n classes.length) (hb : b < n)
    (h : ∀ j (hj : j < classes.length), cell t b j = ys.count classes[j]) : t[b]? = some (countsOf classes ys) := by
  have hb' : b < t.length := by rw [hs.1]; exact hb
  rw [List.getElem?_eq_getElem hb']
  congr 1
  have hl : t[b].length = classes.length := hs.2 _ (List.getElem_mem _)
  apply List.ext_getElem
  · rw [hl]; simp [countsOf]
  · intro j hj hj'
    have := h j (by rw [← hl]; exact hj)
    unfold cell at this
    rw [List.getD_eq_getElem t _ hb', List.getD_eq_getElem _ _ hj] at this
    rw [this]
    simp [countsOf]

theorem ClsRep.rowL {h : Hist K} {edges : List K} {S : List (K × K)} (hr : ClsRep h edges S) (b : Nat)
    (hb : b < edges.length) : h.left[b]? = some (countsOf h.classes (labelsLe S edges[b])) := by
  refine row_eq hr.shapeL (by rw [← hr.good.1]; exact hb) ?_
  intro j hj
  rw [hr.left b hb j hj, countLe_eq]

theorem ClsRep.rowR {h : Hist K} {edges : List K} {S : List (K × K)} (hr : ClsRep h edges S) (b : Nat)
    (hb : b < edges.length) : h.right[b]? = some (countsOf h.classes (labelsGt S edges[b])) := by
  refine row_eq hr.shapeR (by rw [← hr.good.1]; exact hb) ?_
  intro j hj
  rw [hr.right b hb j hj, countGt_eq]

theorem mem_labelsLe {S : List (K × K)} {t y : K} (h : y ∈ labelsLe S t) : ∃ s ∈ S, s.2 = y := by
  unfold labelsLe at h
  obtain ⟨s, hs, rfl⟩ := List.mem_map.1 h
  exact ⟨s, (List.mem_filter.1 hs).1, rfl⟩

theorem mem_labelsGt {S : List (K × K)} {t y : K} (h : y ∈ labelsGt S t) : ∃ s ∈ S, s.2 = y := by
  unfold labelsGt at h
  obtain ⟨s, hs, rfl⟩ := List.mem_map.1 h
  exact ⟨s, (List.mem_filter.1 hs).1, rfl⟩

theorem ClsRep.memLe {h : Hist K} {edges : List K} {S : List (K × K)} (hr : ClsRep h edges S) (t : K) :
    ∀ y ∈ labelsLe S t, y ∈ h.classes := by
  intro y hy; obtain ⟨s, hs, rfl⟩ := mem_labelsLe hy; exact hr.labels s hs

theorem ClsRep.memGt {h : Hist K} {edges : List K} {S : List (K × K)} (hr : ClsRep h edges S) (t : K) :
    ∀ y ∈ labelsGt S t, y ∈ h.classes := by
  intro y hy; obtain ⟨s, hs, rfl⟩ := mem_labelsGt hy; exact hr.labels s hs

theorem ClsRep.memAll {h : Hist K} {edges : List K} {S : List (K × K)} (hr : ClsRep h edges S) :
    ∀ y ∈ S.map Prod.snd, y ∈ h.classes := by
  intro y hy; obtain ⟨s, hs, rfl⟩ := List.mem_map.1 hy; exact hr.labels s hs

theorem addRows_counts (classes : List K) (S : List (K × K)) (t : K) :
    addRows (countsOf classes (labelsLe S t)) (countsOf classes (labelsGt S t)) = countsOf classes (S.map Prod.snd) := by
  unfold addRows countsOf
  rw [List.zipWith_map, List.zipWith_self]
  apply List.map_congr_left
  intro c _
  rw [(labels_perm S t).count_eq, List.count_append]

/-- The variance part of `get_impurity` on the class counts of `ys`. -/
def clsV (m : Criterion) (classes ys : List K) (pop : Option Nat) : XF K :=
  match clsImpurity m (countsOf classes ys) ys.length pop with
  | .ok p => p.2
  | .error _ => .nan

/-- On `k` classes the criterion `m` computes the impurity `imp` of the labels counted. -/
def ClsCrit (m : Criterion) (imp : List K → K) (k : Nat) : Prop :=
  ∀ (classes ys : List K) (pop : Option Nat), classes.Nodup → classes.length = k → (∀ y ∈ ys, y ∈ classes) →
    ∃ v, clsImpurity m (countsOf classes ys) ys.length pop = .ok (.fin (imp ys), v)

theorem ClsCrit.eq {m : Criterion} {imp : List K → K} {k : Nat} (h : ClsCrit m imp k) {classes ys : List K}
    (pop : Option Nat) (hn : classes.Nodup) (hk : classes.length = k) (hy : ∀ y ∈ ys, y ∈ classes) :
    clsImpurity m (countsOf classes ys) ys.length pop = .ok (.fin (imp ys), clsV m classes ys pop) := by
  obtain ⟨v, hv⟩ := h classes ys pop hn hk hy
  unfold clsV
  rw [hv]

theorem clsCrit_gini (k : Nat) (hk : 0 < k) : ClsCrit (K := K) .gini gini k := by
  intro classes ys pop hn hl hy
  have hne : countsOf classes ys ≠ [] := by
    unfold countsOf
    intro h
    rw [List.map_eq_nil_iff] at h
    rw [h] at hl
    simp at hl
    omega
  obtain ⟨v, hv⟩ := getGini_ok (K := K) (countsOf classes ys) ys.length pop hne
  refine ⟨v, ?_⟩
  show getGini _ _ _ = _
  rw [hv, giniK_countsOf hn hy]

theorem entropyImp_eq {classes ys : List K} (hn : classes.Nodup) (hy : ∀ y ∈ ys, y ∈ classes) :
    entropyImp (probs (countsOf classes ys) ys.length : List (XF K)) = .fin (entropy NpFun.log ys) := by
  unfold entropyImp logProbs
  rw [probs_eq, countsOf]
  simp only [List.map_map]
  rw [List.zip_map', List.map_map]
  have hf : ((fun q : XF K × XF K => q.1.neg.mul q.2) ∘ fun c : K =>
        (((fun x : XF K => x.log.nanToNum) ∘ (fun c : Nat => XF.fin ((c : K) / (ys.length : K))) ∘ fun c => ys.count c) c,
          ((fun c : Nat => XF.fin ((c : K) / (ys.length : K))) ∘ fun c => ys.count c) c))
      = XF.fin ∘ (fun c => -(freq ys c * NpFun.log (freq ys c))) := by
    funext c
    show ((XF.fin (freq ys c)).log.nanToNum.neg.mul (XF.fin (freq ys c))) = _
    have h0 := freq_nonneg ys c
    simp only [Function.comp, XF.log, if_neg (not_lt.2 h0)]
    by_cases hc : freq ys c = 0
    · simp [hc, XF.nanToNum]
    · simp only [if_neg hc, XF.nanToNum, XF.neg_fin, XF.mul_fin]
      congr 1; ring
  rw [hf, ← List.map_map, XF.sum_fin]
  congr 1
  rw [sum_classes_eq_dedup hn hy _ (fun c hc => by simp [freq_eq_zero hc])]
  unfold entropy
  induction ys.dedup with
  | nil => simp
  | cons a l ih => simp only [List.map_cons, List.sum_cons, ih]; ring

theorem clsCrit_entropy (k : Nat) (hk : k ≤ 2) : ClsCrit (K := K) .entropy (entropy NpFun.log) k := by
  intro classes ys pop hn hl hy
  show ∃ v, getEntropy _ _ _ = _
  unfold getEntropy
  simp only []
  rw [entropyImp_eq hn hy]
  have hlen : (logProbs (probs (countsOf classes ys) ys.length) : List (XF K)).length = k := by
    simp [logProbs, probs, countsOf, hl]
  have hlen2 : (varProbs (probs (countsOf classes ys) ys.length) ys.length pop : List (XF K)).length = k := by
    simp [varProbs, probs, countsOf, hl]
  have : ∃ v, entropyVar (logProbs (probs (countsOf classes ys) ys.length) : List (XF K))
      (varProbs (probs (countsOf classes ys) ys.length) ys.length pop) = .ok v := by
    unfold entropyVar
    split
    · exact ⟨_, rfl⟩
    · next heq =>
      rw [heq] at hlen
      simp at hlen
      omega
    · exact ⟨_, rfl⟩
  obtain ⟨v, hv⟩ := this
  rw [hv]
  exact ⟨_, rfl⟩

/-! ### The loop over the edges -/

theorem edgeLoop_ok {f : Nat → Bool → Nat → Option Nat → Except Err (XF K × XF K)} {sums : Nat → Option (Nat × Nat)}
    {n : Nat} {pop : Option Nat} (T : Nat → (XF K × XF K) × (XF K × XF K)) (bins : List Nat)
    (h : ∀ b ∈ bins, ∃ ls rs, sums b = some (ls, rs) ∧ edgeTerms (f b) ls rs n pop = .ok (T b)) :
    edgeLoop f sums n pop bins = .ok (bins.map T) := by
  induction bins with
  | nil => rfl
  | cons b bs ih =>
    obtain ⟨ls, rs, h1, h2⟩ := h b List.mem_cons_self
    unfold edgeLoop
    rw [h1]
    simp only []
    rw [h2, ih (fun c hc => h c (List.mem_cons_of_mem _ hc))]
    rfl

theorem edgeTerms_ok {f : Bool → Nat → Option Nat → Except Err (XF K × XF K)} {ls rs n : Nat} {pop : Option Nat}
    {il vl ir vr : XF K} (hn : n ≠ 0) (hl : f true ls (pop.map (fun s => ls * s / n)) = .ok (il, vl))
    (hr : f false rs (pop.map (fun s => rs * s / n)) = .ok (ir, vr)) :
    edgeTerms f ls rs n pop
      = .ok (((XF.fin ((ls : K) / (n : K))).mul il, (((XF.fin ((ls : K) / (n : K))).mul (.fin ((ls : K) / (n : K)))).mul vl)),
          ((XF.fin ((rs : K) / (n : K))).mul ir, (((XF.fin ((rs : K) / (n : K))).mul (.fin ((rs : K) / (n : K)))).mul vr))) := by
  unfold edgeTerms
  rw [if_neg hn]
  simp only [hl, hr]

/-- Variance of the estimated change at threshold `t`. -/
def clsVarRed (V : List K → Option Nat → XF K) (S : List (K × K)) (t : K) (pop : Option Nat) : XF K :=
  let wl : XF K := .fin (((labelsLe S t).length : K) / (S.length : K))
  let wr : XF K := .fin (((labelsGt S t).length : K) / (S.length : K))
  (((wl.mul wl).mul (V (labelsLe S t) (pop.map (fun s => (labelsLe S t).length * s / S.length)))).add
    ((wr.mul wr).mul (V (labelsGt S t) (pop.map (fun s => (labelsGt S t).length * s / S.length))))).add
    (V (S.map Prod.snd) pop)

/-- On a classification histogram that contains exactly the samples `S`, the computed changes are the changes of the
weighted impurity of `S` at the edges. -/
theorem clsReductions_ok {h : Hist K} {edges : List K} {S : List (K × K)} (hr : ClsRep h edges S) (hS : S ≠ [])
    {m : Criterion} {imp : List K → K} (hm : ClsCrit m imp h.classes.length) (pop : Option Nat) {bins : List Nat}
    (hb : bins ≠ []) (hbl : ∀ b ∈ bins, b < edges.length) (hlen : bins.length ≤ h.numBins) :
    clsReductions h bins m pop = .ok (bins.map (fun b =>
      (.fin (change imp S (edges.getD b 0)), clsVarRed (clsV m h.classes) S (edges.getD b 0) pop))) := by
  have h0 : 0 < edges.length := by
    obtain ⟨b, hb'⟩ := List.exists_mem_of_ne_nil _ hb
    exact lt_of_le_of_lt (Nat.zero_le _) (hbl b hb')
  have hSl : S.length ≠ 0 := by simpa using hS
  unfold clsReductions
  rw [if_neg (by omega), hr.rowL 0 h0, hr.rowR 0 h0]
  simp only []
  have hn0 : (countsOf h.classes (labelsLe S edges[0])).sum + (countsOf h.classes (labelsGt S edges[0])).sum = S.length := by
    rw [sum_countsOf hr.nodup (hr.memLe _), sum_countsOf hr.nodup (hr.memGt _), length_labels]
  rw [hn0]
  have hsums : ∀ b, b < edges.length → ((match h.left[b]?, h.right[b]? with
        | some l, some r => some (l.sum, r.sum)
        | _, _ => none) : Option (Nat × Nat))
      = some ((labelsLe S (edges.getD b 0)).length, (labelsGt S (edges.getD b 0)).length) := by
    intro b hb'
    rw [hr.rowL b hb', hr.rowR b hb']
    simp only []
    rw [sum_countsOf hr.nodup (hr.memLe _), sum_countsOf hr.nodup (hr.memGt _), List.getD_eq_getElem _ _ hb']
  rw [edgeLoop_ok (T := fun b =>
    let t := edges.getD b 0
    let wl : XF K := .fin (((labelsLe S t).length : K) / (S.length : K))
    let wr : XF K := .fin (((labelsGt S t).length : K) / (S.length : K))
    ((wl.mul (.fin (imp (labelsLe S t))),
      (wl.mul wl).mul (clsV m h.classes (labelsLe S t) (pop.map (fun s => (labelsLe S t).length * s / S.length)))),
     (wr.mul (.fin (imp (labelsGt S t))),
      (wr.mul wr).mul (clsV m h.classes (labelsGt S t) (pop.map (fun s => (labelsGt S t).length * s / S.length)))))) bins ?_]
  · simp only []
    obtain ⟨bl, hbl'⟩ : ∃ bl, bins.getLast? = some bl := ⟨_, List.getLast?_eq_some_getLast hb⟩
    have hblm : bl ∈ bins := List.mem_of_getLast? hbl'
    rw [hbl']
    simp only [Option.bind_some]
    have hs' := hsums bl (hbl bl hblm)
    rw [hr.rowL bl (hbl bl hblm), hr.rowR bl (hbl bl hblm)] at hs' ⊢
    simp only [Option.some.injEq, Prod.mk.injEq] at hs' ⊢
    rw [hs'.1, hs'.2, length_labels, addRows_counts]
    have := hm.eq pop hr.nodup rfl hr.memAll
    rw [List.length_map] at this
    rw [this]
    simp only [List.map_map]
    congr 1
    apply List.map_congr_left
    intro b _
    simp only [Function.comp, combineEdge, XF.mul_fin, XF.add_fin, XF.sub_fin, clsVarRed, change]
  · intro b hbm
    refine ⟨_, _, hsums b (hbl b hbm), ?_⟩
    have hb' := hbl b hbm
    have eL : h.left.getD b [] = countsOf h.classes (labelsLe S (edges.getD b 0)) := by
      rw [List.getD_eq_getElem?_getD, hr.rowL b hb', List.getD_eq_getElem _ _ hb']; rfl
    have eR : h.right.getD b [] = countsOf h.classes (labelsGt S (edges.getD b 0)) := by
      rw [List.getD_eq_getElem?_getD, hr.rowR b hb', List.getD_eq_getElem _ _ hb']; rfl
    refine edgeTerms_ok hSl ?_ ?_
    · simp only [if_true, eL]
      exact hm.eq _ hr.nodup rfl (hr.memLe _)
    · simp only [Bool.false_eq_true, if_false, eR]
      exact hm.eq _ hr.nodup rfl (hr.memGt _)

/-! ### Regression -/

theorem XF.nanToNum_isFin (x : XF K) : ∃ v, x.nanToNum = .fin v := by
  cases x <;> exact ⟨_, rfl⟩

theorem mseEst_isFin (p : Pile K) (pop : Option Nat) : ∃ v, mseEst p pop = .fin v := by
  unfold mseEst
  cases pop <;> exact XF.nanToNum_isFin _

theorem mseVar_isFin (p : Pile K) (pop : Option Nat) (e : XF K) : ∃ v, mseVar p pop e = .fin v := by
  unfold mseVar
  cases pop <;> exact XF.nanToNum_isFin _

/-- The number inside a finite value. -/
def XF.val : XF K → K
  | .fin v => v
  | _ => 0

/-- The estimated MSE as a number. -/
def mseK (p : Pile K) (pop : Option Nat) : K := (mseEst p pop).val

/-- The variance of the estimated MSE as a number. -/
def mseVarK (p : Pile K) (pop : Option Nat) : K := (mseVar p pop (mseEst p pop)).val

theorem mseEst_eq (p : Pile K) (pop : Option Nat) : mseEst p pop = .fin (mseK p pop) := by
  obtain ⟨v, hv⟩ := mseEst_isFin p pop
  unfold mseK
  rw [hv]; rfl

theorem mseVar_eq (p : Pile K) (pop : Option Nat) : mseVar p pop (mseEst p pop) = .fin (mseVarK p pop) := by
  obtain ⟨v, hv⟩ := mseVar_isFin p pop (mseEst p pop)
  unfold mseVarK
  rw [hv]; rfl

theorem getMse_ok (p : Pile K) (pop : Option Nat) (h : ∀ s, pop = some s → p.n ≤ s) :
    getMse p pop = .ok (.fin (mseK p pop), .fin (mseVarK p pop)) := by
  unfold getMse
  rw [← mseEst_eq, ← mseVar_eq]
  cases pop with
  | none => rfl
  | some s => simp only []; rw [if_neg (not_lt.2 (h s rfl))]

theorem RegRep.getL {h : Hist K} {edges : List K} {S : List (K × K)} (hr : RegRep h edges S) (b : Nat)
    (hb : b < edges.length) : h.leftPile[b]? = some (h.leftPile.getD b Pile.zero) := by
  have : b < h.leftPile.length := by rw [hr.lenL, ← hr.good.1]; exact hb
  rw [List.getElem?_eq_getElem this, List.getD_eq_getElem _ _ this]

theorem RegRep.getR {h : Hist K} {edges : List K} {S : List (K × K)} (hr : RegRep h edges S) (b : Nat)
    (hb : b < edges.length) : h.rightPile[b]? = some (h.rightPile.getD b Pile.zero) := by
  have : b < h.rightPile.length := by rw [hr.lenR, ← hr.good.1]; exact hb
  rw [List.getElem?_eq_getElem this, List.getD_eq_getElem _ _ this]

/-- Population share of a side: `int(left_sum * pop / n)`. -/
def popShare (pop : Option Nat) (part whole : Nat) : Option Nat := pop.map (fun s => part * s / whole)

/-- The estimated change of a regression histogram at edge `b`. -/
def regRed (h : Hist K) (n : Nat) (pop : Option Nat) (b : Nat) : K :=
  let l := h.leftPile.getD b Pile.zero
  let r := h.rightPile.getD b Pile.zero
  (l.n : K) / (n : K) * mseK l (popShare pop l.n n) + (r.n : K) / (n : K) * mseK r (popShare pop r.n n)
    - mseK h.currPile pop

/-- The variance of the estimated change of a regression histogram at edge `b`. -/
def regVarRed (h : Hist K) (n : Nat) (pop : Option Nat) (b : Nat) : K :=
  let l := h.leftPile.getD b Pile.zero
  let r := h.rightPile.getD b Pile.zero
  (l.n : K) / (n : K) * ((l.n : K) / (n : K)) * mseVarK l (popShare pop l.n n)
    + (r.n : K) / (n : K) * ((r.n : K) / (n : K)) * mseVarK r (popShare pop r.n n) + mseVarK h.currPile pop

theorem share_ge {part whole s : Nat} (hw : whole ≠ 0) (h : whole ≤ s) : part ≤ part * s / whole := by
  rw [Nat.le_div_iff_mul_le (Nat.pos_of_ne_zero hw)]
  exact Nat.mul_le_mul_left _ h

theorem regReductions_ok {h : Hist K} {edges : List K} {S : List (K × K)} (hr : RegRep h edges S) (hS : S ≠ [])
    (pop : Option Nat) (hpop : ∀ s, pop = some s → S.length ≤ s) {bins : List Nat}
    (hb : bins ≠ []) (hbl : ∀ b ∈ bins, b < edges.length) (hlen : bins.length ≤ h.numBins) :
    regReductions h bins .mse pop = .ok (bins.map (fun b =>
      (.fin (regRed h S.length pop b), .fin (regVarRed h S.length pop b)))) := by
  have h0 : 0 < edges.length := by
    obtain ⟨b, hb'⟩ := List.exists_mem_of_ne_nil _ hb
    exact lt_of_le_of_lt (Nat.zero_le _) (hbl b hb')
  have hSl : S.length ≠ 0 := by simpa using hS
  have hnl : ∀ b, b < edges.length → (h.leftPile.getD b Pile.zero).n = (labelsLe S (edges.getD b 0)).length := by
    intro b hb'
    rw [(hr.left b hb').n, List.getD_eq_getElem _ _ hb']
  have hnr : ∀ b, b < edges.length → (h.rightPile.getD b Pile.zero).n = (labelsGt S (edges.getD b 0)).length := by
    intro b hb'
    rw [(hr.right b hb').n, List.getD_eq_getElem _ _ hb']
  unfold regReductions
  rw [if_neg (by omega), hr.getL 0 h0, hr.getR 0 h0]
  simp only []
  rw [hnl 0 h0, hnr 0 h0, length_labels]
  rw [edgeLoop_ok (T := fun b =>
    let l := h.leftPile.getD b Pile.zero
    let r := h.rightPile.getD b Pile.zero
    let wl : XF K := .fin ((l.n : K) / (S.length : K))
    let wr : XF K := .fin ((r.n : K) / (S.length : K))
    ((wl.mul (.fin (mseK l (popShare pop l.n S.length))), (wl.mul wl).mul (.fin (mseVarK l (popShare pop l.n S.length)))),
     (wr.mul (.fin (mseK r (popShare pop r.n S.length))), (wr.mul wr).mul (.fin (mseVarK r (popShare pop r.n S.length)))))) bins ?_]
  · simp only [regImpurity]
    rw [getMse_ok]
    · simp only [List.map_map]
      congr 1
      apply List.map_congr_left
      intro b _
      simp only [Function.comp, combineEdge, XF.mul_fin, XF.add_fin, XF.sub_fin, regRed, regVarRed]
    · intro s hs
      rw [hr.curr.n, List.length_map]
      exact hpop s hs
  · intro b hbm
    have hb' := hbl b hbm
    refine ⟨(h.leftPile.getD b Pile.zero).n, (h.rightPile.getD b Pile.zero).n, ?_, ?_⟩
    · rw [hr.getL b hb', hr.getR b hb']
    · refine edgeTerms_ok hSl ?_ ?_
      · simp only [if_true, regImpurity]
        apply getMse_ok
        intro s hs
        obtain ⟨s', hs', rfl⟩ := Option.map_eq_some_iff.1 hs
        exact share_ge hSl (hpop s' hs')
      · simp only [Bool.false_eq_true, if_false, regImpurity]
        apply getMse_ok
        intro s hs
        obtain ⟨s', hs', rfl⟩ := Option.map_eq_some_iff.1 hs
        exact share_ge hSl (hpop s' hs')

theorem PileRep.var_small {p : Pile K} {ys : List K} (_h : PileRep p ys) (hv : p.var = variance ys) (hl : ys.length ≤ 1) :
    p.var = 0 := by
  rw [hv]
  match ys, hl with
  | [], _ => simp [variance, Spec.mean]
  | [a], _ => simp [variance, Spec.mean]

/-- The estimated MSE of a whole population is its variance. -/
theorem mseK_full (p : Pile K) (h1 : p.n ≤ 1 → p.var = 0) : mseK p (some p.n) = p.var := by
  unfold mseK mseEst
  simp only [xnat, XF.mul_fin, XF.sub_fin]
  by_cases h : p.n ≤ 1
  · rw [h1 h, zero_mul]
    have : (((p.n : K) - 1) * (p.n : K)) = 0 := by
      have : p.n = 0 ∨ p.n = 1 := by omega
      rcases this with h | h <;> simp [h]
    rw [this, XF.div_zero, XF.signInf_nanToNum]
    rfl
  · have hn0 : (p.n : K) ≠ 0 := by
      have : p.n ≠ 0 := by omega
      exact_mod_cast this
    have hn1 : (p.n : K) - 1 ≠ 0 := by
      have : (p.n : K) ≠ 1 := by
        have : p.n ≠ 1 := by omega
        exact_mod_cast this
      exact sub_ne_zero.2 this
    rw [XF.div_fin _ _ (mul_ne_zero hn1 hn0), XF.nanToNum_fin]
    show p.var * ((p.n : K) * ((p.n : K) - 1)) / (((p.n : K) - 1) * (p.n : K)) = p.var
    field_simp

theorem mseVarK_full (p : Pile K) : mseVarK p (some p.n) = 0 := by
  unfold mseVarK mseVar
  rw [mseEst_eq]
  generalize mseK p (some p.n) = e
  simp only [xnat, XF.mul_fin, XF.sub_fin, XF.add_fin, sub_self, mul_zero, zero_mul]
  have hz : ∀ d : K, XF.div (.fin 0) (.fin d) = .fin 0 ∨ XF.div (.fin (0 : K)) (.fin d) = .nan := by
    intro d
    by_cases hd : d = 0
    · right; rw [hd, XF.div_zero]; simp [XF.signInf]
    · left; rw [XF.div_fin _ _ hd, _root_.zero_div]
  rcases hz ((((p.n : K) * ((p.n : K) - 1)) * ((p.n : K) - 1)) * ((p.n : K) - 2) * ((p.n : K) - 3)) with h | h <;>
  rcases hz ((p.n : K) * ((p.n : K) - 1) * (((p.n : K) - 1) * ((p.n : K) - 1)) * ((p.n : K) - 2) * ((p.n : K) - 3)) with h' | h' <;>
  rw [h, h'] <;> simp [XF.nanToNum, XF.mul, XF.add, XF.neg, XF.val]

/-- With exact piles and the population equal to the samples, the regression changes are the changes of the weighted
variance. -/
theorem regRed_full {h : Hist K} {edges : List K} {S : List (K × K)} (hr : RegRep h edges S) (he : ExactVar h edges S)
    (hS : S ≠ []) (b : Nat) (hb : b < edges.length) :
    regRed h S.length (some S.length) b = change variance S (edges.getD b 0) := by
  have hSl : S.length ≠ 0 := by simpa using hS
  have hsh : ∀ k : Nat, popShare (some S.length) k S.length = some k := by
    intro k
    simp only [popShare, Option.map_some]
    rw [Nat.mul_div_cancel _ (Nat.pos_of_ne_zero hSl)]
  unfold regRed
  simp only [hsh]
  have hL := hr.left b hb
  have hR := hr.right b hb
  have hC := hr.curr
  have e0 : edges.getD b 0 = edges[b] := List.getD_eq_getElem _ _ hb
  have vL := he.left b hb
  have vR := he.right b hb
  have vC := he.curr
  rw [mseK_full _ (fun hn => hL.var_small vL (by rw [← hL.n]; exact hn)),
    mseK_full _ (fun hn => hR.var_small vR (by rw [← hR.n]; exact hn))]
  have hcn : h.currPile.n = S.length := by rw [hC.n, List.length_map]
  rw [← hcn, mseK_full _ (fun hn => hC.var_small vC (by rw [← hC.n]; exact hn)), hcn]
  rw [hL.n, hR.n, vL, vR, vC]
  unfold change
  rw [e0]

end FF
