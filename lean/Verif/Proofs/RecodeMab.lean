import Verif.Proofs.Recode

/-!
# Two runs of MABSplit on recoded data

The second data set is the first one, its rows in the same order, its columns put through strictly increasing maps that carry the
grid of thresholds along and its labels through a map that keeps the histograms: an increasing one for classes, a shift or a
reflection for targets. Every batch then gives the same estimates and the same confidence intervals, so the two searches take the
same decisions.
-/

namespace FF

open Spec

set_option linter.unusedSectionVars false

variable {K : Type} [Field K] [LinearOrder K] [IsStrictOrderedRing K] [FloorRing K] [NpFun K] {G : Type}

/-- Label maps under which every histogram keeps its counts and variances. -/
structure SameCost (isCls : Bool) (ψ : K → K) : Prop where
  cls : isCls = true → StrictMono ψ
  reg : isCls = false → ∃ a b : K, a * a = 1 ∧ ∀ y, ψ y = a * y + b

/-! ### Piles -/

/-- A pile of a regression histogram in the two runs. -/
structure PileRec (ψ : K → K) (p p' : Pile K) : Prop where
  n : p'.n = p.n
  var : p'.var = p.var
  mean : p.n ≠ 0 → p'.mean = ψ p.mean

theorem PileRec.zero (ψ : K → K) : PileRec ψ (Pile.zero : Pile K) Pile.zero := ⟨rfl, rfl, fun h => absurd rfl h⟩

theorem npMean_affine' {a b : K} {l : List K} (hl : l.length ≠ 0) : npMean (l.map (fun y => a * y + b)) = a * npMean l + b := by
  have hn : (l.length : K) ≠ 0 := by exact_mod_cast hl
  have hs : ∀ l : List K, (l.map (fun y => a * y + b)).sum = a * l.sum + b * l.length := by
    intro l
    induction l with
    | nil => simp
    | cons x xs ih => simp only [List.map_cons, List.sum_cons, ih, List.length_cons]; push_cast; ring
  unfold npMean
  rw [hs, List.length_map]
  field_simp

theorem npVar_affine {a b : K} (ha : a * a = 1) {l : List K} (hl : l.length ≠ 0) :
    npVar (l.map (fun y => a * y + b)) = npVar l := by
  unfold npVar
  rw [npMean_affine' hl, List.length_map, List.map_map]
  congr 2
  refine List.map_congr_left (fun y _ => ?_)
  simp only [Function.comp]
  have : (a * y + b - (a * npMean l + b)) * (a * y + b - (a * npMean l + b)) = a * a * ((y - npMean l) * (y - npMean l)) := by ring
  rw [this, ha, one_mul]

theorem updateBins_rec {ψ : K → K} (hψ : ∃ a b : K, a * a = 1 ∧ ∀ y, ψ y = a * y + b) {p p' : Pile K} (h : PileRec ψ p p')
    (cur : List K) : PileRec ψ (updateBins p cur) (updateBins p' (cur.map ψ)) := by
  obtain ⟨a, b, ha, hab⟩ := hψ
  have hm : cur.map ψ = cur.map (fun y => a * y + b) := List.map_congr_left (fun y _ => hab y)
  rw [hm]
  unfold updateBins
  rw [List.length_map]
  split_ifs with hl
  · exact h
  · have hn : (cur.length : K) ≠ 0 := by exact_mod_cast hl
    have hN : ((p.n + cur.length : Nat) : K) ≠ 0 := by
      have : p.n + cur.length ≠ 0 := by omega
      exact_mod_cast this
    refine ⟨?_, ?_, ?_⟩
    · simp only [h.n]
    · simp only [h.n, h.var, npMean_affine' hl, npVar_affine ha hl]
      unfold welford
      split_ifs
      · rfl
      · rfl
      · simp only []
        by_cases h0 : p.n = 0
        · simp [h0]
        · rw [h.mean h0, hab]
          have : (a * p.mean + b - (a * npMean cur + b)) * (a * p.mean + b - (a * npMean cur + b)) =
              a * a * ((p.mean - npMean cur) * (p.mean - npMean cur)) := by ring
          rw [this, ha, one_mul]
    · intro _
      simp only [h.n, npMean_affine' hl, hab]
      by_cases h0 : p.n = 0
      · simp only [h0, Nat.cast_zero, zero_mul, zero_add]
        rw [mul_div_cancel_left₀ _ hn, mul_div_cancel_left₀ _ hn]
      · rw [h.mean h0, hab]
        have hN' : ((p.n : K) + cur.length) ≠ 0 := by exact_mod_cast hN
        push_cast
        field_simp
        ring

theorem getMse_rec {ψ : K → K} {p p' : Pile K} (h : PileRec ψ p p') (pop : Option Nat) : getMse p' pop = getMse p pop := by
  unfold getMse mseVar mseEst
  rw [h.n, h.var]

theorem regImpurity_rec {ψ : K → K} {p p' : Pile K} (h : PileRec ψ p p') (m : Criterion) (pop : Option Nat) :
    regImpurity m p' pop = regImpurity m p pop := by
  unfold regImpurity
  rw [getMse_rec h]

/-- Piles at the same positions. -/
def PilesRec (ψ : K → K) (l l' : List (Pile K)) : Prop := List.Forall₂ (PileRec ψ) l l'

theorem PilesRec.length {ψ : K → K} {l l' : List (Pile K)} (h : PilesRec ψ l l') : l'.length = l.length :=
  (List.Forall₂.length_eq h).symm

theorem PilesRec.get {ψ : K → K} {l l' : List (Pile K)} (h : PilesRec ψ l l') (b : Nat) :
    (l[b]? = none ∧ l'[b]? = none) ∨ ∃ p p' : Pile K, l[b]? = some p ∧ l'[b]? = some p' ∧ PileRec ψ p p' := by
  rcases Nat.lt_or_ge b l.length with hb | hb
  · right
    have hb' : b < l'.length := by rw [h.length]; exact hb
    exact ⟨_, _, List.getElem?_eq_getElem hb, List.getElem?_eq_getElem hb', List.Forall₂.get h hb hb'⟩
  · left
    exact ⟨List.getElem?_eq_none hb, List.getElem?_eq_none (by rw [h.length]; exact hb)⟩

theorem PilesRec.of_get {ψ : K → K} {l l' : List (Pile K)} (hl : l'.length = l.length)
    (h : ∀ b : Nat, ∀ p p' : Pile K, l[b]? = some p → l'[b]? = some p' → PileRec ψ p p') : PilesRec ψ l l' := by
  unfold PilesRec
  rw [List.forall₂_iff_get]
  refine ⟨hl.symm, fun i h1 h2 => ?_⟩
  exact h i _ _ (List.getElem?_eq_getElem h1) (List.getElem?_eq_getElem h2)

/-! ### Histograms -/

/-- The histogram of feature `f` in the two runs. -/
structure HistRec (φ : Nat → K → K) (ψ : K → K) (f : Nat) (h h' : Hist K) : Prop where
  isCls : h'.isCls = h.isCls
  feat : h.featureIdx = f
  feat' : h'.featureIdx = f
  classes : h.isCls = true → h'.classes = h.classes.map ψ
  bins : h'.numBins = h.numBins
  edges : h'.edges = h.edges.map (List.map (φ f))
  bin : ∀ es v, h.edges = some es → h'.getBin (es.map (φ f)) (φ f v) = h.getBin es v
  left : h'.left = h.left
  right : h'.right = h.right
  leftPile : PilesRec ψ h.leftPile h'.leftPile
  rightPile : PilesRec ψ h.rightPile h'.rightPile
  currPile : PileRec ψ h.currPile h'.currPile

theorem searchsorted_rec {φ : K → K} (hφ : StrictMono φ) (es : List K) (v : K) : searchsorted (es.map φ) (φ v) = searchsorted es v := by
  unfold searchsorted
  rw [List.filter_map, List.length_map]
  simp only [Function.comp_def, hφ.lt_iff_lt]

theorem colE_rec {φ : Nat → K → K} {X : List (List K)} {f : Nat} {c c' : List K} (hc : colE X f = .ok c)
    (hc' : colE (X.map (recodeRow φ)) f = .ok c') : c' = c.map (φ f) := by
  unfold colE at hc hc'
  split_ifs at hc hc' with h1 h2
  cases hc
  cases hc'
  rw [List.map_map, List.map_map]
  refine List.map_congr_left (fun row hr => ?_)
  simp only [Function.comp]
  exact recodeRow_getD φ (by simpa using List.all_eq_true.1 h1 row hr)

theorem idxOf_map_injective {ψ : K → K} (hψ : Function.Injective ψ) (l : List K) (y : K) : (l.map ψ).idxOf (ψ y) = l.idxOf y := by
  induction l with
  | nil => rfl
  | cons x xs ih =>
    rw [List.map_cons, List.idxOf_cons, List.idxOf_cons, ih]
    by_cases h : x = y
    · subst h
      rw [beq_self_eq_true, beq_self_eq_true]
    · have h2 : ψ x ≠ ψ y := fun e => h (hψ e)
      rw [beq_false_of_ne h, beq_false_of_ne h2]

theorem classIdxE_rec {ψ : K → K} (hψ : Function.Injective ψ) {cl ys : List K} {n n' : List Nat} (h : classIdxE cl ys = .ok n)
    (h' : classIdxE (cl.map ψ) (ys.map ψ) = .ok n') : n' = n := by
  unfold classIdxE at h h'
  split_ifs at h h'
  cases h
  cases h'
  rw [List.map_map]
  refine List.map_congr_left (fun y _ => ?_)
  simp only [Function.comp]
  exact idxOf_map_injective hψ _ _

theorem maskSel_rec (ψ : K → K) (bins : List Nat) (ys : List K) (p : Nat → Bool) :
    maskSel bins (ys.map ψ) p = (maskSel bins ys p).map ψ := by
  unfold maskSel
  rw [List.zip_map_right, List.filter_map, List.map_map, List.map_map]
  rfl

theorem Hist.add_rec {φ : Nat → K → K} {ψ : K → K} {f : Nat} {h h' r r' : Hist K} (hψ : SameCost h.isCls ψ)
    (hh : HistRec φ ψ f h h') {X : List (List K)} {Y : List K} (ha : h.add X Y = .ok r)
    (ha' : h'.add (X.map (recodeRow φ)) (Y.map ψ) = .ok r') : HistRec φ ψ f r r' ∧ r.isCls = h.isCls := by
  unfold Hist.add at ha ha'
  rw [hh.feat] at ha
  rw [hh.feat'] at ha'
  split at ha
  · cases ha
  rename_i c hc
  split at ha'
  · cases ha'
  rename_i c' hc'
  split at ha
  · cases ha
  rename_i es hes
  rw [hh.edges, hes] at ha'
  simp only [Option.map_some] at ha'
  have hbins : c'.map (h'.getBin (es.map (φ f))) = c.map (h.getBin es) := by
    rw [colE_rec hc hc', List.map_map]
    exact List.map_congr_left (fun v _ => hh.bin es v hes)
  rw [hh.isCls] at ha'
  rw [hbins] at ha'
  split at ha
  · rename_i hcl
    rw [if_pos hcl] at ha'
    split_ifs at ha with q1 q2
    split_ifs at ha' with q1' q2'
    split at ha
    · cases ha
    rename_i ny hny
    split at ha'
    · cases ha'
    rename_i ny' hny'
    rw [hh.classes hcl] at hny'
    have := classIdxE_rec (hψ.cls hcl).injective hny hny'
    subst this
    cases ha
    cases ha'
    refine ⟨⟨rfl, rfl, rfl, hh.classes, hh.bins, by simp only [hes, Option.map_some], hh.bin, ?_, ?_, hh.leftPile, hh.rightPile, hh.currPile⟩, rfl⟩
    · simp only [hh.left, hh.right]
    · simp only [hh.left, hh.right]
  · rename_i hcl
    rw [if_neg hcl] at ha'
    have hreg := hψ.reg (by simpa using hcl)
    split_ifs at ha with q1 q2
    split_ifs at ha' with q1' q2'
    cases ha
    cases ha'
    refine ⟨⟨rfl, rfl, rfl, hh.classes, hh.bins, by simp only [hes, Option.map_some], hh.bin, hh.left, hh.right, ?_, ?_,
      updateBins_rec hreg hh.currPile Y⟩, rfl⟩
    · refine PilesRec.of_get (by simp [hh.leftPile.length]) ?_
      intro b p p' hp hp'
      simp only [List.getElem?_mapIdx, maskSel_rec] at hp hp'
      rcases hh.leftPile.get b with ⟨e1, e2⟩ | ⟨q, q', e1, e2, e3⟩
      · rw [e1] at hp; cases hp
      · rw [e1] at hp
        rw [e2] at hp'
        cases hp
        cases hp'
        exact updateBins_rec hreg e3 _
    · refine PilesRec.of_get (by simp [hh.rightPile.length]) ?_
      intro b p p' hp hp'
      simp only [List.getElem?_mapIdx, maskSel_rec] at hp hp'
      rcases hh.rightPile.get b with ⟨e1, e2⟩ | ⟨q, q', e1, e2, e3⟩
      · rw [e1] at hp; cases hp
      · rw [e1] at hp
        rw [e2] at hp'
        cases hp
        cases hp'
        exact updateBins_rec hreg e3 _

theorem Hist.emptySamples_rec {φ : Nat → K → K} {ψ : K → K} {f : Nat} {h h' : Hist K} (hh : HistRec φ ψ f h h') :
    HistRec φ ψ f h.emptySamples h'.emptySamples := by
  unfold Hist.emptySamples
  rw [hh.isCls]
  split_ifs with hcl
  · refine ⟨rfl, hh.feat, hh.feat', hh.classes, hh.bins, hh.edges, hh.bin, ?_, ?_, hh.leftPile, hh.rightPile, hh.currPile⟩
    · simp only [hh.left, hh.classes hcl, List.length_map]
    · simp only [hh.right, hh.classes hcl, List.length_map]
  · have hz : ∀ l l' : List (Pile K), PilesRec ψ l l' →
        PilesRec ψ (l.map (fun _ => Pile.zero)) (l'.map (fun _ => Pile.zero)) := by
      intro l l' hl
      refine PilesRec.of_get (by simp [hl.length]) ?_
      intro b p p' hp hp'
      simp only [List.getElem?_map, Option.map_eq_some_iff] at hp hp'
      obtain ⟨_, _, rfl⟩ := hp
      obtain ⟨_, _, rfl⟩ := hp'
      exact PileRec.zero ψ
    exact ⟨rfl, hh.feat, hh.feat', hh.classes, hh.bins, hh.edges, hh.bin, hh.left, hh.right, hz _ _ hh.leftPile,
      hz _ _ hh.rightPile, PileRec.zero ψ⟩

theorem edgeLoop_congr {f f' : Nat → Bool → Nat → Option Nat → Except Err (XF K × XF K)} {sums sums' : Nat → Option (Nat × Nat)}
    (hf : ∀ b x n p, f' b x n p = f b x n p) (hs : ∀ b, sums' b = sums b) (n : Nat) (pop : Option Nat) (bs : List Nat) :
    edgeLoop f' sums' n pop bs = edgeLoop f sums n pop bs := by
  have h1 : f' = f := by funext b x n p; exact hf b x n p
  have h2 : sums' = sums := funext hs
  rw [h1, h2]

theorem impurityReductions_rec {φ : Nat → K → K} {ψ : K → K} {f : Nat} {h h' : Hist K} (hh : HistRec φ ψ f h h') (bins : List Nat)
    (m : Criterion) (pop : Option Nat) : impurityReductions h' bins m pop = impurityReductions h bins m pop := by
  unfold impurityReductions
  rw [hh.isCls]
  split_ifs
  · unfold clsReductions
    rw [hh.bins, hh.left, hh.right]
  · unfold regReductions
    rw [hh.bins]
    have hf : ∀ (b : Nat) (side : Bool) (p : Option Nat),
        regImpurity m (if side then h'.leftPile.getD b Pile.zero else h'.rightPile.getD b Pile.zero) p =
        regImpurity m (if side then h.leftPile.getD b Pile.zero else h.rightPile.getD b Pile.zero) p := by
      intro b side p
      refine regImpurity_rec (ψ := ψ) ?_ m p
      simp only [List.getD_eq_getElem?_getD]
      cases side
      · rcases hh.rightPile.get b with ⟨e1, e2⟩ | ⟨q, q', e1, e2, e3⟩
        · rw [e1, e2]; exact PileRec.zero ψ
        · rw [e1, e2]; exact e3
      · rcases hh.leftPile.get b with ⟨e1, e2⟩ | ⟨q, q', e1, e2, e3⟩
        · rw [e1, e2]; exact PileRec.zero ψ
        · rw [e1, e2]; exact e3
    rw [regImpurity_rec hh.currPile]
    rcases hh.leftPile.get 0 with ⟨e1, e2⟩ | ⟨p, p', e1, e2, e3⟩
    · rw [e1, e2]
    · rcases hh.rightPile.get 0 with ⟨r1, r2⟩ | ⟨q, q', r1, r2, r3⟩
      · rw [e1, e2, r1, r2]
      · rw [e1, e2, r1, r2]
        simp only [e3.n, r3.n]
        rw [edgeLoop_congr (fun b x n p => hf b x p) (fun b => ?_)]
        rcases hh.leftPile.get b with ⟨e1, e2⟩ | ⟨p, p', e1, e2, e3⟩
        · rw [e1, e2]
        · rcases hh.rightPile.get b with ⟨r1, r2⟩ | ⟨q, q', r1, r2, r3⟩
          · rw [e1, e2, r1, r2]
          · rw [e1, e2, r1, r2]
            simp only [e3.n, r3.n]

/-- All the histograms of a node in the two runs. -/
structure HistsRec (isCls : Bool) (φ : Nat → K → K) (ψ : K → K) (w : Nat) (hs hs' : List (Hist K)) : Prop where
  width : hs.length = w
  len : hs'.length = hs.length
  get : ∀ f : Nat, ∀ h h' : Hist K, hs[f]? = some h → hs'[f]? = some h' → HistRec φ ψ f h h'
  cls : ∀ h ∈ hs, h.isCls = isCls

theorem HistsRec.some {isCls : Bool} {w : Nat} {φ : Nat → K → K} {ψ : K → K} {hs hs' : List (Hist K)} (hh : HistsRec isCls φ ψ w hs hs')
    {f : Nat} {h : Hist K} (hf : hs[f]? = some h) : ∃ h' : Hist K, hs'[f]? = some h' ∧ HistRec φ ψ f h h' := by
  have hl : f < hs'.length := by
    rw [hh.len]
    exact (List.getElem?_eq_some_iff.1 hf).1
  exact ⟨_, List.getElem?_eq_getElem hl, hh.get f h _ hf (List.getElem?_eq_getElem hl)⟩

theorem sampleLoop_rec {isCls : Bool} {w : Nat} {φ : Nat → K → K} {ψ : K → K} (hψ : SameCost isCls ψ) {samples : List (List K)}
    {slabels : List K} {m : Criterion} {pop : Option Nat} (gs : List (Nat × List Nat)) :
    ∀ {acc acc' r r' : SampleAcc K}, HistsRec isCls φ ψ w acc.hists acc'.hists → acc' = { acc with hists := acc'.hists } →
    sampleLoop samples slabels m pop gs acc = .ok r →
    sampleLoop (samples.map (recodeRow φ)) (slabels.map ψ) m pop gs acc' = .ok r' →
    HistsRec isCls φ ψ w r.hists r'.hists ∧ r' = { r with hists := r'.hists } := by
  induction gs with
  | nil =>
    intro acc acc' r r' h1 h2 h3 h4
    cases h3
    cases h4
    exact ⟨h1, h2⟩
  | cons x rest ih =>
    intro acc acc' r r' h1 h2 h3 h4
    obtain ⟨f, bins⟩ := x
    unfold sampleLoop at h3 h4
    split at h3
    · cases h3
    rename_i h hf
    obtain ⟨h', hf', hr⟩ := h1.some hf
    rw [hf'] at h4
    simp only [] at h4
    split at h3
    · cases h3
    rename_i h2' ha
    split at h4
    · cases h4
    rename_i h2'' ha'
    have hcls := h1.cls h (List.mem_of_getElem? hf)
    obtain ⟨hr2, hc2⟩ := Hist.add_rec (by rw [hcls]; exact hψ) hr ha ha'
    rw [impurityReductions_rec hr2] at h4
    split at h3
    · cases h3
    rename_i rs hrs
    rw [hrs] at h4
    simp only [] at h4
    refine ih ?_ ?_ h3 h4
    · refine ⟨by simp [h1.width], by simp [h1.len], ?_, ?_⟩
      · intro f1 k k' hk hk'
        simp only [List.getElem?_set] at hk hk'
        by_cases e : f = f1
        · subst e
          have l1 : f < acc.hists.length := (List.getElem?_eq_some_iff.1 hf).1
          have l2 : f < acc'.hists.length := (List.getElem?_eq_some_iff.1 hf').1
          simp only [l1, l2, if_true, Option.some.injEq] at hk hk'
          subst hk
          subst hk'
          exact hr2
        · simp only [e, if_false] at hk hk'
          exact h1.get f1 k k' hk hk'
      · intro k hk
        rcases List.mem_or_eq_of_mem_set hk with q | q
        · exact h1.cls k q
        · rw [q, hc2, hcls]
    · rw [h2]
      simp

theorem sampleTargets_rec {R : Rng K G} {isCls : Bool} {w : Nat} {φ : Nat → K → K} {ψ : K → K} (hψ : SameCost isCls ψ) {g : G}
    {data : List (List K)} {labels : List K} {arms : List Arm} {hs hs' : List (Hist K)} (hh : HistsRec isCls φ ψ w hs hs')
    {batch : Nat} {m : Criterion} {pop : Option (List Nat)} {out out' : SampleOut K G}
    (h : sampleTargets R g data labels arms hs batch m pop = .ok out)
    (h' : sampleTargets R g (data.map (recodeRow φ)) (labels.map ψ) arms hs' batch m pop = .ok out') :
    HistsRec isCls φ ψ w out.acc.hists out'.acc.hists ∧ out'.acc.reds = out.acc.reds ∧ out'.acc.cbs = out.acc.cbs ∧
      out'.acc.nq = out.acc.nq ∧ out'.pop = out.pop ∧ out'.g = out.g ∧ out'.drawn = out.drawn := by
  unfold sampleTargets at h h'
  rw [List.length_map] at h'
  split at h
  · cases h
  rename_i idcs p p2 g2 hd
  rw [hd] at h'
  simp only [] at h'
  split at h
  · cases h
  rename_i sm hsm
  split at h'
  · cases h'
  rename_i sm' hsm'
  split at h
  · cases h
  rename_i sl hsl
  split at h'
  · cases h'
  rename_i sl' hsl'
  have e1 : sm' = sm.map (recodeRow φ) := by
    rw [(takeE_ok hsm).1, (takeE_ok hsm').1, List.map_map]
    refine List.map_congr_left (fun i hi => ?_)
    have hl := (takeE_ok hsm).2 i hi
    simp only [Function.comp]
    rw [List.getD_eq_getElem _ _ hl, List.getD_eq_getElem _ _ (by simpa using hl), List.getElem_map]
  have e2 : sl' = sl.map ψ := by
    rw [(takeE_ok hsl).1, (takeE_ok hsl').1, List.map_map]
    refine List.map_congr_left (fun i hi => ?_)
    have hl := (takeE_ok hsl).2 i hi
    simp only [Function.comp]
    rw [List.getD_eq_getElem _ _ hl, List.getD_eq_getElem _ _ (by simpa using hl), List.getElem_map]
  subst e1
  subst e2
  split at h
  · cases h
  rename_i acc hacc
  split at h'
  · cases h'
  rename_i acc' hacc'
  obtain ⟨q1, q2⟩ := sampleLoop_rec hψ (groupArms arms) (acc := { hists := hs, reds := [], cbs := [], nq := 0 })
    (acc' := { hists := hs', reds := [], cbs := [], nq := 0 }) hh rfl hacc hacc'
  cases h
  cases h'
  refine ⟨q1, ?_, ?_, ?_, rfl, rfl, rfl⟩
  · simpa using congrArg SampleAcc.reds q2
  · simpa using congrArg SampleAcc.cbs q2
  · simpa using congrArg SampleAcc.nq q2

/-! ### The search -/

/-- The local variables of the two searches: everything but the histograms is the same. -/
structure MabRec (isCls : Bool) (φ : Nat → K → K) (ψ : K → K) (w : Nat) (s s' : MabState K G) : Prop where
  hists : HistsRec isCls φ ψ w s.hists s'.hists
  rest : s' = { s with hists := s'.hists }

/-- The two searches take the same branch. -/
def LoopRec (isCls : Bool) (φ : Nat → K → K) (ψ : K → K) (w : Nat) : Loop (MabState K G) → Loop (MabState K G) → Prop
  | .done s, .done s' => MabRec isCls φ ψ w s s'
  | .next s, .next s' => MabRec isCls φ ψ w s s'
  | _, _ => False

theorem emptyHistograms_rec {isCls : Bool} {w : Nat} {φ : Nat → K → K} {ψ : K → K} {hs hs' : List (Hist K)}
    (hh : HistsRec isCls φ ψ w hs hs') (arms : List Arm) :
    HistsRec isCls φ ψ w (emptyHistograms hs arms) (emptyHistograms hs' arms) := by
  unfold emptyHistograms
  refine ⟨by simp [hh.width], by simp [hh.len], ?_, ?_⟩
  · intro f k k' hk hk'
    simp only [List.getElem?_mapIdx, Option.map_eq_some_iff] at hk hk'
    obtain ⟨a, ha, rfl⟩ := hk
    obtain ⟨a', ha', rfl⟩ := hk'
    have := hh.get f a a' ha ha'
    split_ifs
    · exact Hist.emptySamples_rec this
    · exact this
  · intro k hk
    rw [List.mem_iff_getElem?] at hk
    obtain ⟨f, hf⟩ := hk
    simp only [List.getElem?_mapIdx, Option.map_eq_some_iff] at hf
    obtain ⟨a, ha, rfl⟩ := hf
    have := hh.cls a (List.mem_of_getElem? ha)
    split_ifs
    · unfold Hist.emptySamples
      split_ifs
      · exact this
      · exact this
    · exact this

theorem mabExactPart_rec {R : Rng K G} {isCls : Bool} {w : Nat} {φ : Nat → K → K} {ψ : K → K} (hψ : SameCost isCls ψ) {F B : Nat}
    {data : List (List K)} {labels : List K} {m : Criterion} {withRep : Bool} {budget : Option Int} {batch : Nat}
    {s s' : MabState K G} (hs : MabRec isCls φ ψ w s s') {l l' : Loop (MabState K G)}
    (h : mabExactPart R F B data labels m withRep budget batch s = .ok l)
    (h' : mabExactPart R F B (data.map (recodeRow φ)) (labels.map ψ) m withRep budget batch s' = .ok l') :
    LoopRec isCls φ ψ w l l' := by
  have he : exactArms F B data.length batch s' = exactArms F B data.length batch s := by rw [hs.rest]; rfl
  have hr := hs.rest
  have hh := hs.hists
  generalize hs'h : s'.hists = hs2 at hr hh
  unfold mabExactPart at h h'
  simp only [List.length_map, he, hs'h] at h h'
  subst hr
  simp only [] at h'
  split at h
  · split at h
    · split at h
      · cases h
      rename_i hw ha _ out hout
      rw [if_pos hw, if_pos ha] at h'
      split at h'
      · cases h'
      rename_i out' hout'
      obtain ⟨q1, q2, q3, q4, q5, q6, q7⟩ := sampleTargets_rec hψ (emptyHistograms_rec hh _) hout hout'
      simp only [q2, q4, q7] at h'
      split at h
      · cases h
      rename_i est hest
      rw [hest] at h'
      simp only [] at h'
      split at h
      · cases h
      rename_i mu hmu
      rw [hmu] at h'
      simp only [] at h'
      split at h
      · cases h
      rename_i ml hml
      rw [hml] at h'
      simp only [] at h'
      split at h
      · rename_i hb
        rw [if_pos hb] at h'
        cases h
        cases h'
        exact ⟨q1, rfl⟩
      · rename_i hb
        rw [if_neg hb] at h'
        split at h
        · rename_i hc
          rw [if_pos hc] at h'
          cases h
          cases h'
          exact ⟨q1, rfl⟩
        · rename_i hc
          rw [if_neg hc] at h'
          cases h
          cases h'
          exact ⟨q1, rfl⟩
    · rename_i hw ha
      rw [if_pos hw, if_neg ha] at h'
      cases h
      cases h'
      exact ⟨hh, rfl⟩
  · rename_i hw
    rw [if_neg hw] at h'
    cases h
    cases h'
    exact ⟨hh, rfl⟩

theorem mabSamplePart_rec {R : Rng K G} {isCls : Bool} {w : Nat} {φ : Nat → K → K} {ψ : K → K} (hψ : SameCost isCls ψ) {F B : Nat}
    {data : List (List K)} {labels : List K} {m : Criterion} {epsilon : K} {budget : Option Int} {batch : Nat}
    {s s' : MabState K G} (hs : MabRec isCls φ ψ w s s') {l l' : Loop (MabState K G)}
    (h : mabSamplePart R F B data labels m epsilon budget batch s = .ok l)
    (h' : mabSamplePart R F B (data.map (recodeRow φ)) (labels.map ψ) m epsilon budget batch s' = .ok l') :
    LoopRec isCls φ ψ w l l' := by
  have hr := hs.rest
  have hh := hs.hists
  generalize hs'h : s'.hists = hs2 at hr hh
  unfold mabSamplePart at h h'
  subst hr
  simp only [] at h'
  split at h
  · rename_i h1
    rw [if_pos h1] at h'
    cases h
    cases h'
    exact ⟨hh, rfl⟩
  rename_i h1
  rw [if_neg h1] at h'
  split at h
  · rename_i h2
    rw [if_pos h2] at h'
    cases h
    cases h'
    exact ⟨hh, rfl⟩
  rename_i h2
  rw [if_neg h2] at h'
  split at h
  · cases h
  rename_i out hout
  split at h'
  · cases h'
  rename_i out' hout'
  obtain ⟨q1, q2, q3, q4, q5, q6, q7⟩ := sampleTargets_rec hψ hh hout hout'
  simp only [q2, q3, q4, q5, q6, q7] at h'
  split at h
  · cases h
  rename_i est hest
  rw [hest] at h'
  simp only [] at h'
  split at h
  · cases h
  rename_i cbd hcbd
  rw [hcbd] at h'
  simp only [] at h h'
  split at h
  · rename_i hb
    rw [if_pos hb] at h'
    cases h
    cases h'
    exact ⟨q1, rfl⟩
  rename_i hb
  rw [if_neg hb] at h'
  split at h
  · cases h
  rename_i ml hml
  rw [hml] at h'
  simp only [] at h'
  split at h
  · rename_i hc
    rw [if_pos hc] at h'
    cases h
    cases h'
    exact ⟨q1, rfl⟩
  rename_i hc
  rw [if_neg hc] at h'
  split at h
  · cases h
  rename_i mi hmi
  rw [hmi] at h'
  simp only [] at h'
  split at h
  · cases h
  rename_i mu hmu
  rw [hmu] at h'
  simp only [] at h'
  cases h
  cases h'
  exact ⟨q1, rfl⟩

theorem mabStep_rec {R : Rng K G} {isCls : Bool} {w : Nat} {φ : Nat → K → K} {ψ : K → K} (hψ : SameCost isCls ψ) {F B : Nat}
    {data : List (List K)} {labels : List K} {m : Criterion} {epsilon : K} {withRep : Bool} {budget : Option Int} {batch : Nat}
    {s s' : MabState K G} (hs : MabRec isCls φ ψ w s s') {l l' : Loop (MabState K G)}
    (h : mabStep R F B data labels m epsilon withRep budget batch s = .ok l)
    (h' : mabStep R F B (data.map (recodeRow φ)) (labels.map ψ) m epsilon withRep budget batch s' = .ok l') :
    LoopRec isCls φ ψ w l l' := by
  unfold mabStep at h h'
  split at h
  · cases h
  · rename_i s1 h1
    cases h
    split at h'
    · cases h'
    · rename_i s1' h1'
      cases h'
      exact mabExactPart_rec hψ hs h1 h1'
    · rename_i s1' h1'
      exact absurd (mabExactPart_rec hψ hs h1 h1') id
  · rename_i s1 h1
    split at h'
    · cases h'
    · rename_i s1' h1'
      exact absurd (mabExactPart_rec hψ hs h1 h1') id
    · rename_i s1' h1'
      exact mabSamplePart_rec hψ (mabExactPart_rec hψ hs h1 h1') h h'

theorem mabLoop_rec {R : Rng K G} {isCls : Bool} {w : Nat} {φ : Nat → K → K} {ψ : K → K} (hψ : SameCost isCls ψ) {F B : Nat}
    {data : List (List K)} {labels : List K} {m : Criterion} {epsilon : K} {withRep : Bool} {budget : Option Int} {batch : Nat}
    (fuel : Nat) : ∀ {s s' r r' : MabState K G}, MabRec isCls φ ψ w s s' →
    mabLoop R F B data labels m epsilon withRep budget batch fuel s = .ok r →
    mabLoop R F B (data.map (recodeRow φ)) (labels.map ψ) m epsilon withRep budget batch fuel s' = .ok r' →
    MabRec isCls φ ψ w r r' := by
  induction fuel with
  | zero =>
    intro s s' r r' hs h h'
    unfold mabLoop at h h'
    split_ifs at h
    split_ifs at h'
    cases h
    cases h'
    exact hs
  | succ n ih =>
    intro s s' r r' hs h h'
    have hc : s'.cands = s.cands := by rw [hs.rest]
    unfold mabLoop at h h'
    rw [hc] at h'
    split at h
    · rename_i h5
      rw [if_pos h5] at h'
      split at h
      · cases h
      · rename_i s1 h1
        cases h
        split at h'
        · cases h'
        · rename_i s1' h1'
          cases h'
          exact mabStep_rec hψ hs h1 h1'
        · rename_i s1' h1'
          exact absurd (mabStep_rec hψ hs h1 h1') id
      · rename_i s1 h1
        split at h'
        · cases h'
        · rename_i s1' h1'
          exact absurd (mabStep_rec hψ hs h1 h1') id
        · rename_i s1' h1'
          exact ih (mabStep_rec hψ hs h1 h1') h h'
    · rename_i h5
      rw [if_neg h5] at h'
      cases h
      cases h'
      exact hs

theorem finishSplit_rec {isCls : Bool} {w : Nat} {φ : Nat → K → K} {ψ : K → K} {hs hs' : List (Hist K)} (hh : HistsRec isCls φ ψ w hs hs')
    {est : Mat K} {arm : Arm} {r r' : Option (SplitRes K)} (h : finishSplit hs est arm = .ok r)
    (h' : finishSplit hs' est arm = .ok r') :
    r' = r.map (fun x => { feat := x.feat, value := φ x.feat x.value, red := x.red }) ∧ ∀ x, r = some x → x.feat < w := by
  unfold finishSplit at h h'
  split at h
  · cases h
  rename_i k hk
  obtain ⟨k', hk', hr⟩ := hh.some hk
  rw [hk'] at h'
  simp only [] at h'
  split at h
  · cases h
  rename_i es hes
  rw [hr.edges, hes] at h'
  simp only [Option.map_some, List.getElem?_map] at h'
  split at h
  · cases h
  rename_i v hv
  rw [hv] at h'
  simp only [Option.map_some] at h'
  split at h
  · rename_i hl
    rw [if_pos hl] at h'
    cases h
    cases h'
    refine ⟨rfl, ?_⟩
    intro x hx
    cases hx
    rw [← hh.width]
    exact (List.getElem?_eq_some_iff.1 hk).1
  · rename_i hl
    rw [if_neg hl] at h'
    cases h
    cases h'
    exact ⟨rfl, fun x hx => by cases hx⟩

theorem mabFinish_rec {R : Rng K G} {isCls : Bool} {w : Nat} {φ : Nat → K → K} {ψ : K → K} {F B : Nat} {gl : Glob G} {s s' : MabState K G}
    (hs : MabRec isCls φ ψ w s s') {o o' : MabOut K G} (h : mabFinish R F B gl s = .ok o) (h' : mabFinish R F B gl s' = .ok o') :
    o'.split = o.split.map (fun x => { feat := x.feat, value := φ x.feat x.value, red := x.red }) ∧ o'.total = o.total ∧
      o'.g = o.g ∧ o'.glob = o.glob ∧ ∀ x, o.split = some x → x.feat < w := by
  have hr := hs.rest
  have hh := hs.hists
  generalize hs'h : s'.hists = hs2 at hr hh
  unfold mabFinish at h h'
  subst hr
  simp only [] at h'
  split at h
  · cases h
  rename_i arms harms
  rw [harms] at h'
  simp only [] at h'
  split at h
  · cases h
  rename_i hl
  rw [if_neg hl] at h'
  simp only [] at h
  split at h
  · cases h
  rename_i r hfin
  split at h'
  · cases h'
  rename_i r' hfin'
  obtain ⟨q1, q2⟩ := finishSplit_rec hh hfin hfin'
  cases h
  cases h'
  exact ⟨q1, rfl, rfl, rfl, q2⟩

/-! ### `make_histograms` -/

/-- The histograms of the two runs, in full. -/
structure FullRec (isCls : Bool) (φ : Nat → K → K) (ψ : K → K) (st st' : Hists K G) : Prop where
  hists : HistsRec isCls φ ψ st.hists.length st.hists st'.hists
  cons : st'.cons = st.cons
  notCons : st'.notCons = st.notCons
  bins : st'.numBins = st.numBins
  gen : st'.g = st.g

theorem getBin_rec {φ : K → K} (hφ : StrictMono φ) {h h' : Hist K} (hb : h'.binType = h.binType) (hn : h'.numBins = h.numBins)
    (hlin : h.binType = .linear → (∃ a b : K, ∀ x, φ x = a * x + b) ∧ h'.minBin = φ h.minBin ∧ h'.maxBin = φ h.maxBin)
    (es : List K) (v : K) : h'.getBin (es.map φ) (φ v) = h.getBin es v := by
  unfold Hist.getBin
  rw [hb, hn]
  split_ifs with h1 h2
  · rfl
  · obtain ⟨⟨a, b, hab⟩, e1, e2⟩ := hlin h1
    have ha : a ≠ 0 := by
      rintro rfl
      have := hφ (zero_lt_one' K)
      rw [hab, hab] at this
      simp at this
    have : (φ v - h'.minBin) / ((h'.maxBin - h'.minBin) / ((h.numBins : K) - 1)) =
        (v - h.minBin) / ((h.maxBin - h.minBin) / ((h.numBins : K) - 1)) := by
      rw [e1, e2, hab, hab, hab, show a * v + b - (a * h.minBin + b) = a * (v - h.minBin) by ring,
        show a * h.maxBin + b - (a * h.minBin + b) = a * (h.maxBin - h.minBin) by ring, mul_div_assoc a (h.maxBin - h.minBin),
        mul_div_mul_left _ _ ha]
    simp only [this]
  · exact searchsorted_rec hφ es v

theorem makeHistStep_rec {R : Rng K G} {isCls : Bool} {φ : Nat → K → K} {ψ : K → K} {data : List (List K)}
    {labels cl : List K} {mm : Option (List K × List K)} {d : DiscDict K} {binType : Option BinType} {B f : Nat}
    {st st' s1 s1' : Hists K G} (h : NodeRecode φ ψ data labels (data.map (recodeRow φ)) (labels.map ψ))
    (hφ : ∀ f, StrictMono (φ f)) (hgrid : GridOK binType φ) {cl' : List K} (hcl : isCls = true → cl' = cl.map ψ)
    (hst : FullRec isCls φ ψ st st') (hlen : st.hists.length = f)
    (hs : makeHistStep R isCls data cl mm d binType B f st = .ok s1)
    (hs' : makeHistStep R isCls (data.map (recodeRow φ)) cl' (recodeMinmax φ mm) d binType B f st' = .ok s1') :
    FullRec isCls φ ψ s1 s1' ∧ s1.hists.length = f + 1 := by
  rw [makeHistStep_eq] at hs hs'
  split at hs
  · cases hs
  rename_i c hc
  split at hs
  · cases hs
  rename_i lo hi nb hpar
  split at hs
  · cases hs
  rename_i hh g1 hinit
  split at hs'
  · cases hs'
  rename_i c' hc'
  split at hs'
  · cases hs'
  rename_i lo' hi' nb' hpar'
  split at hs'
  · cases hs'
  rename_i hh' g1' hinit'
  have hcc := h.col hc hc'
  have hbt : binTypeFor d binType (data.map (recodeRow φ)).length B f = binTypeFor d binType data.length B f := by
    rw [h.length_eq]
  rw [hbt] at hpar' hinit'
  rw [hst.bins] at hpar'
  obtain ⟨e1, e2⟩ := binParams_recode h hφ hcc hpar hpar'
  subst e1
  have hg' : binTypeFor d binType data.length B f = .identity ∨
      (binTypeFor d binType data.length B f = .linear ∧ ∃ a b : K, ∀ x, φ f x = a * x + b) ∨ ∀ x, φ f x = x := by
    rcases hgrid with q | q | q
    · left; rw [q]; rfl
    · right; left; rw [q.1]; exact ⟨rfl, q.2 f⟩
    · right; right; exact q f
  unfold Hist.init at hinit hinit'
  split at hinit
  · cases hinit
  rename_i e n g2 he
  split at hinit'
  · cases hinit'
  rename_i e' n' g2' he'
  cases hinit
  cases hinit'
  obtain ⟨r1, r2, r3⟩ := makeEdges_recode (hφ f) hg' hcc e2 (fun _ => hst.gen) he he'
  subst r2
  cases hs
  cases hs'
  have hnew : HistRec φ ψ f (Hist.mk' isCls f cl (binTypeFor d binType data.length B f) lo hi e n')
      (Hist.mk' isCls f cl' (binTypeFor d binType data.length B f) lo' hi' e' n') := by
    have hz : PilesRec ψ (if isCls then [] else List.replicate n' (Pile.zero : Pile K))
        (if isCls then [] else List.replicate n' Pile.zero) := by
      refine PilesRec.of_get rfl ?_
      intro b p p' hp hp'
      rw [hp] at hp'
      cases hp'
      split_ifs at hp
      · simp at hp
      · rw [List.getElem?_replicate] at hp
        split_ifs at hp
        cases hp
        exact PileRec.zero ψ
    refine ⟨rfl, rfl, rfl, hcl, rfl, r1, ?_, ?_, ?_, hz, hz, PileRec.zero ψ⟩
    · intro es v _
      refine getBin_rec (h := Hist.mk' isCls f cl (binTypeFor d binType data.length B f) lo hi e n')
        (h' := Hist.mk' isCls f cl' (binTypeFor d binType data.length B f) lo' hi' e' n') (hφ f) rfl rfl ?_ es v
      intro q
      refine ⟨?_, e2 (Or.inl q)⟩
      rcases hg' with r | r | r
      · exact absurd (r.symm.trans q) (by decide)
      · exact r.2
      · exact ⟨1, 0, fun x => by rw [r]; ring⟩
    · show (if isCls then _ else _) = (if isCls then _ else _)
      split_ifs with q
      · rw [hcl q, List.length_map]
      · rfl
    · show (if isCls then _ else _) = (if isCls then _ else _)
      split_ifs with q
      · rw [hcl q, List.length_map]
      · rfl
  refine ⟨⟨⟨rfl, ?_, ?_, ?_⟩, ?_, ?_, rfl, ?_⟩, ?_⟩
  · simp [hst.hists.len]
  · intro f' k k' hk hk'
    rcases Nat.lt_trichotomy f' f with q | q | q
    · rw [List.getElem?_append_left (by omega)] at hk
      rw [List.getElem?_append_left (by rw [hst.hists.len]; omega)] at hk'
      exact hst.hists.get f' k k' hk hk'
    · subst q
      rw [List.getElem?_append_right (by omega)] at hk
      rw [List.getElem?_append_right (by rw [hst.hists.len]; omega)] at hk'
      simp only [hst.hists.len, hlen, Nat.sub_self, List.getElem?_cons_zero, Option.some.injEq] at hk hk'
      subst hk
      subst hk'
      exact hnew
    · rw [List.getElem?_eq_none (by simp; omega)] at hk
      cases hk
  · intro k hk
    rcases List.mem_append.1 hk with q | q
    · exact hst.hists.cls k q
    · rw [List.mem_singleton.1 q]
      rfl
  · simp only [hst.cons]; rfl
  · simp only [hst.notCons]; rfl
  · exact r3 hst.gen
  · simp [hlen]

theorem makeHistLoop_rec {R : Rng K G} {isCls : Bool} {φ : Nat → K → K} {ψ : K → K} {data : List (List K)}
    {labels cl : List K} {mm : Option (List K × List K)} {d : DiscDict K} {binType : Option BinType} {B : Nat}
    (h : NodeRecode φ ψ data labels (data.map (recodeRow φ)) (labels.map ψ))
    (hφ : ∀ f, StrictMono (φ f)) (hgrid : GridOK binType φ) {cl' : List K} (hcl : isCls = true → cl' = cl.map ψ) (n : Nat) :
    ∀ {k : Nat} {st st' s1 s1' : Hists K G}, FullRec isCls φ ψ st st' → st.hists.length = k →
    makeHistLoop R isCls data cl mm d binType B (List.range' k n) st = .ok s1 →
    makeHistLoop R isCls (data.map (recodeRow φ)) cl' (recodeMinmax φ mm) d binType B (List.range' k n) st' = .ok s1' →
    FullRec isCls φ ψ s1 s1' ∧ s1.hists.length = k + n := by
  induction n with
  | zero =>
    intro k st st' s1 s1' hst hl hs hs'
    cases hs
    cases hs'
    exact ⟨hst, hl⟩
  | succ n ih =>
    intro k st st' s1 s1' hst hlen hs hs'
    rw [List.range'_succ] at hs hs'
    unfold makeHistLoop at hs hs'
    split at hs
    · cases hs
    rename_i s2 h2
    split at hs'
    · cases hs'
    rename_i s2' h2'
    obtain ⟨a, b⟩ := makeHistStep_rec h hφ hgrid hcl hst hlen h2 h2'
    obtain ⟨c1, c2⟩ := ih a b hs hs'
    exact ⟨c1, by omega⟩

theorem makeHistograms_rec {R : Rng K G} {g : G} {isCls : Bool} {φ : Nat → K → K} {ψ : K → K}
    {row : List K} {rest : List (List K)} {labels : List K} {mm : Option (List K × List K)}
    {d : DiscDict K} {binType : Option BinType} {B : Nat} {hs hs' : Hists K G} (hψ : SameCost isCls ψ)
    (h : NodeRecode φ ψ (row :: rest) labels ((row :: rest).map (recodeRow φ)) (labels.map ψ))
    (hφ : ∀ f, StrictMono (φ f)) (hgrid : GridOK binType φ)
    (hm : makeHistograms R g isCls (row :: rest) labels mm d binType B = .ok hs)
    (hm' : makeHistograms R g isCls ((row :: rest).map (recodeRow φ)) (labels.map ψ) (recodeMinmax φ mm) d binType B = .ok hs') :
    FullRec isCls φ ψ hs hs' ∧ hs.hists.length = row.length := by
  unfold makeHistograms at hm hm'
  simp only [List.map_cons, recodeRow_length, List.range_eq_range'] at hm hm'
  have := makeHistLoop_rec h hφ hgrid (cl := if isCls then npUnique labels else [])
    (cl' := if isCls then npUnique (labels.map ψ) else []) ?_ row.length (k := 0)
    (st := { hists := [], notCons := [], cons := [], numBins := B, g := g })
    (st' := { hists := [], notCons := [], cons := [], numBins := B, g := g })
    ⟨⟨rfl, rfl, fun f k k' hk => by simp at hk, by simp⟩, rfl, rfl, rfl, rfl⟩ rfl hm hm'
  · rw [Nat.zero_add] at this
    exact this
  · intro q
    rw [if_pos q, if_pos q]
    exact npUnique_recode (hψ.cls q) (List.Perm.refl _)

/-! ### `solve_mab` -/

theorem solveMab_recode {R : Rng K G} {g : G} {gl : Glob G} {junk : Junk K} {φ : Nat → K → K} {ψ : K → K}
    {data : List (List K)} {labels : List K} {mm : Option (List K × List K)}
    {d : DiscDict K} {binType : Option BinType} {numBins : Option Nat} {isCls : Bool} {m : Criterion} {epsilon : K}
    {withRep : Bool} {budget : Option Int} {batch F : Nat} {o o' : MabOut K G} (hψ : SameCost isCls ψ)
    (hd : ∀ row ∈ data, row.length = F) (hl : data.length = labels.length)
    (hφ : ∀ f, StrictMono (φ f)) (hgrid : GridOK binType φ)
    (hok : solveMab R g gl junk data labels mm d binType numBins isCls m epsilon withRep budget batch = .ok o)
    (hok' : solveMab R g gl junk (data.map (recodeRow φ)) (labels.map ψ) (recodeMinmax φ mm) d binType numBins isCls m epsilon
      withRep budget batch = .ok o') :
    o'.split = o.split.map (fun x => { feat := x.feat, value := φ x.feat x.value, red := x.red }) ∧ o'.total = o.total ∧
      o'.g = o.g ∧ o'.glob = o.glob ∧ ∀ x, o.split = some x → x.feat < F := by
  have hnr : NodeRecode φ ψ data labels (data.map (recodeRow φ)) (labels.map ψ) := by
    refine ⟨hl, by simpa using hl, List.Perm.of_eq ?_⟩
    rw [List.zip_map]
    rfl
  unfold solveMab at hok hok'
  split at hok
  · cases hok
  rename_i row rest
  simp only [List.map_cons, recodeRow_length] at hok'
  split at hok
  · cases hok
  rename_i hbt
  rw [if_neg hbt] at hok'
  split at hok
  · cases hok
  rename_i B
  simp only [] at hok hok'
  split at hok
  · cases hok
  rename_i hs hhs
  split at hok'
  · cases hok'
  rename_i hs' hhs'
  obtain ⟨q1, q2⟩ := makeHistograms_rec hψ hnr hφ hgrid hhs hhs'
  split at hok
  · cases hok
  rename_i s0 hs0
  split at hok'
  · cases hok'
  rename_i s0' hs0'
  have h0 : MabRec isCls φ ψ row.length s0 s0' := by
    unfold mabInit at hs0 hs0'
    rw [q1.notCons, q1.cons] at hs0'
    split at hs0
    · rename_i e1 e2 e3 f1 f2 f3
      rw [f1, f2, f3] at hs0'
      simp only [List.length_cons, List.length_map] at hs0'
      cases hs0
      cases hs0'
      exact ⟨by rw [← q2]; exact q1.hists, rfl⟩
    · cases hs0
  split at hok
  · cases hok
  rename_i s1 hs1
  split at hok'
  · cases hok'
  rename_i s1' hs1'
  have h1 : MabRec isCls φ ψ row.length s1 s1' := by
    refine mabLoop_rec hψ _ h0 hs1 ?_
    simpa using hs1'
  rw [q1.gen] at hok'
  obtain ⟨r1, r2, r3, r4, r5⟩ := mabFinish_rec h1 hok hok'
  refine ⟨r1, r2, r3, r4, ?_⟩
  intro x hx
  rw [← hd row List.mem_cons_self]
  exact r5 x hx

end FF
