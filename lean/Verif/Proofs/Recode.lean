import Verif.Proofs.TreeSum
import Verif.Props.Binning

/-!
# Two runs of the exact solver on recoded data

The second data set is the first one with its rows in any order, its columns put through strictly increasing maps and its labels
through an injective map. This file follows the two runs of the solver, of `make_histograms` and of the impurity side by side.
-/

namespace FF

open Spec

set_option linter.unusedSectionVars false

variable {K : Type} [Field K] [LinearOrder K] [IsStrictOrderedRing K] [FloorRing K] [NpFun K] {G : Type}

/-! ### Lists -/

theorem npUnique_recode {φ : K → K} (hφ : StrictMono φ) {l l' : List K} (h : l'.Perm (l.map φ)) :
    npUnique l' = (npUnique l).map φ := by
  have hp : (npUnique l').Perm ((npUnique l).map φ) := by
    rw [List.perm_ext_iff_of_nodup (npUnique_nodup _) ((npUnique_nodup _).map hφ.injective)]
    intro a
    rw [mem_npUnique, h.mem_iff, List.mem_map, List.mem_map]
    simp only [mem_npUnique]
  refine hp.eq_of_pairwise (le := (· ≤ ·)) (fun a b _ _ => le_antisymm) (npUnique_sorted _) ?_
  rw [List.pairwise_map]
  exact (npUnique_sorted l).imp (fun hab => hφ.monotone hab)

theorem npUnique_recode_length {ψ : K → K} (hψ : Function.Injective ψ) {l l' : List K} (h : l'.Perm (l.map ψ)) :
    (npUnique l').length = (npUnique l).length := by
  have hp : (npUnique l').Perm ((npUnique l).map ψ) := by
    rw [List.perm_ext_iff_of_nodup (npUnique_nodup _) ((npUnique_nodup _).map hψ)]
    intro a
    rw [mem_npUnique, h.mem_iff, List.mem_map, List.mem_map]
    simp only [mem_npUnique]
  rw [hp.length_eq, List.length_map]

theorem npMin_recode {φ : K → K} (hφ : StrictMono φ) {l l' : List K} (h : l'.Perm (l.map φ)) {a b : K} (ha : npMin l = some a)
    (hb : npMin l' = some b) : b = φ a := by
  have h1 := h.mem_iff.1 (npMin_mem hb)
  obtain ⟨x, hx, rfl⟩ := List.mem_map.1 h1
  exact le_antisymm (npMin_le hb (h.mem_iff.2 (List.mem_map.2 ⟨a, npMin_mem ha, rfl⟩))) (hφ.monotone (npMin_le ha hx))

theorem npMax_recode {φ : K → K} (hφ : StrictMono φ) {l l' : List K} (h : l'.Perm (l.map φ)) {a b : K} (ha : npMax l = some a)
    (hb : npMax l' = some b) : b = φ a := by
  have h1 := h.mem_iff.1 (npMax_mem hb)
  obtain ⟨x, hx, rfl⟩ := List.mem_map.1 h1
  exact le_antisymm (hφ.monotone (le_npMax ha hx)) (le_npMax hb (h.mem_iff.2 (List.mem_map.2 ⟨a, npMax_mem ha, rfl⟩)))

theorem linspace_affine (a b lo hi : K) (n : Nat) :
    linspace (a * lo + b) (a * hi + b) n = (linspace lo hi n).map (fun x => a * x + b) := by
  unfold linspace
  split
  · rfl
  · rw [List.map_map]
    refine List.map_congr_left (fun i _ => ?_)
    simp only [Function.comp]
    rw [show a * hi + b - (a * lo + b) = a * (hi - lo) by ring, mul_div_assoc]
    ring

/-! ### Impurity -/

theorem critImp_perm (m : Criterion) {a b : List K} (h : a.Perm b) : critImp m a = critImp m b := by
  cases m with
  | gini => exact gini_perm h
  | mse => exact variance_perm h
  | entropy =>
    show entropy NpFun.log a = entropy NpFun.log b
    unfold entropy freq
    rw [h.length_eq, (h.dedup.map _).sum_eq]
    congr 2
    exact List.map_congr_left (fun c _ => by rw [h.count_eq])

theorem change_recode {imp : List K → K} (hperm : ∀ {a b : List K}, a.Perm b → imp a = imp b) {φ ψ : K → K} {s : K}
    (hφ : StrictMono φ) (himp : ∀ ys, imp (ys.map ψ) = s * imp ys) {S S' : List (K × K)}
    (h : S'.Perm (S.map (fun p => (φ p.1, ψ p.2)))) (t : K) : change imp S' (φ t) = s * change imp S t := by
  have e1 : (labelsLe S' (φ t)).Perm ((labelsLe S t).map ψ) := by
    unfold labelsLe
    refine ((h.filter _).map _).trans (List.Perm.of_eq ?_)
    rw [List.filter_map, List.map_map, List.map_map]
    simp only [Function.comp_def, hφ.le_iff_le]
  have e2 : (labelsGt S' (φ t)).Perm ((labelsGt S t).map ψ) := by
    unfold labelsGt
    refine ((h.filter _).map _).trans (List.Perm.of_eq ?_)
    rw [List.filter_map, List.map_map, List.map_map]
    simp only [Function.comp_def, hφ.lt_iff_lt]
  have e3 : (S'.map Prod.snd).Perm ((S.map Prod.snd).map ψ) := by
    refine (h.map _).trans (List.Perm.of_eq ?_)
    rw [List.map_map, List.map_map]
    rfl
  unfold change
  rw [hperm e1, hperm e2, hperm e3, himp, himp, himp, e1.length_eq, e2.length_eq, h.length_eq]
  simp only [List.length_map]
  ring

/-! ### The samples of a node -/

/-- A row whose columns are put through the maps `φ`. -/
def recodeRow (φ : Nat → K → K) (row : List K) : List K := row.mapIdx φ

theorem recodeRow_length (φ : Nat → K → K) (row : List K) : (recodeRow φ row).length = row.length := List.length_mapIdx

theorem recodeRow_get? (φ : Nat → K → K) (row : List K) (f : Nat) : (recodeRow φ row)[f]? = (row[f]?).map (φ f) :=
  List.getElem?_mapIdx

theorem recodeRow_getD (φ : Nat → K → K) {row : List K} {f : Nat} (h : f < row.length) :
    (recodeRow φ row).getD f 0 = φ f (row.getD f 0) := by
  rw [List.getD_eq_getElem?_getD, recodeRow_get?, List.getElem?_eq_getElem h, List.getD_eq_getElem _ _ h]
  rfl

/-- The samples of a node in the two runs. -/
structure NodeRecode (φ : Nat → K → K) (ψ : K → K) (data : List (List K)) (labels : List K) (data' : List (List K))
    (labels' : List K) : Prop where
  len : data.length = labels.length
  len' : data'.length = labels'.length
  perm : (data'.zip labels').Perm ((data.zip labels).map (fun p => (recodeRow φ p.1, ψ p.2)))

namespace NodeRecode

variable {φ : Nat → K → K} {ψ : K → K} {data data' : List (List K)} {labels labels' : List K}

theorem rows (h : NodeRecode φ ψ data labels data' labels') : data'.Perm (data.map (recodeRow φ)) := by
  have := h.perm.map Prod.fst
  rw [List.map_fst_zip (le_of_eq h.len'), List.map_map] at this
  refine this.trans (List.Perm.of_eq ?_)
  conv_rhs => rw [← List.map_fst_zip (le_of_eq h.len), List.map_map]
  rfl

theorem labs (h : NodeRecode φ ψ data labels data' labels') : labels'.Perm (labels.map ψ) := by
  have := h.perm.map Prod.snd
  rw [List.map_snd_zip (le_of_eq h.len'.symm), List.map_map] at this
  refine this.trans (List.Perm.of_eq ?_)
  conv_rhs => rw [← List.map_snd_zip (le_of_eq h.len.symm), List.map_map]
  rfl

theorem length_eq (h : NodeRecode φ ψ data labels data' labels') : data'.length = data.length := by
  rw [h.rows.length_eq, List.length_map]

theorem col (h : NodeRecode φ ψ data labels data' labels') {f : Nat} {c c' : List K} (hc : colE data f = .ok c)
    (hc' : colE data' f = .ok c') : c'.Perm (c.map (φ f)) := by
  unfold colE at hc hc'
  split_ifs at hc hc' with h1 h2
  cases hc
  cases hc'
  refine (h.rows.map _).trans (List.Perm.of_eq ?_)
  rw [List.map_map, List.map_map]
  refine List.map_congr_left (fun row hr => ?_)
  simp only [Function.comp]
  exact recodeRow_getD φ (by simpa using List.all_eq_true.1 h1 row hr)

theorem samples (h : NodeRecode φ ψ data labels data' labels') {f : Nat} (hf : ∀ row ∈ data, f < row.length) :
    (nodeSamples data' labels' f).Perm ((nodeSamples data labels f).map (fun p => (φ f p.1, ψ p.2))) := by
  have e : ∀ (d : List (List K)) (l : List K), nodeSamples d l f = (d.zip l).map (fun p => (p.1.getD f 0, p.2)) := by
    intro d l
    unfold nodeSamples batchSamples
    rw [List.zip_map_left]
    rfl
  rw [e, e]
  refine (h.perm.map _).trans (List.Perm.of_eq ?_)
  rw [List.map_map, List.map_map]
  refine List.map_congr_left (fun p hp => ?_)
  simp only [Function.comp]
  rw [recodeRow_getD φ (hf _ (List.of_mem_zip hp).1)]

end NodeRecode

/-! ### `make_histograms` -/

/-- Column maps that carry the grid of thresholds along: any increasing maps for IDENTITY, affine ones for LINEAR, and only the
identity otherwise. -/
def GridOK (binType : Option BinType) (φ : Nat → K → K) : Prop :=
  binType = some .identity ∨ (binType = some .linear ∧ ∀ f, ∃ a b : K, ∀ x, φ f x = a * x + b) ∨ ∀ f x, φ f x = x

/-- Precomputed minima and maxima, recoded. -/
def recodeMinmax (φ : Nat → K → K) (mm : Option (List K × List K)) : Option (List K × List K) :=
  mm.map (fun m => (recodeRow φ m.1, recodeRow φ m.2))

/-- The histograms of the two runs. -/
structure HistsRecode (P : Prop) (φ : Nat → K → K) (st st' : Hists K G) : Prop where
  len : st'.hists.length = st.hists.length
  edges : ∀ f, edgesOf st'.hists f = (edgesOf st.hists f).map (φ f)
  cons : st'.cons = st.cons
  notCons : st'.notCons = st.notCons
  bins : st'.numBins = st.numBins
  gen : P → st'.g = st.g

theorem edgesOf_append (hs : List (Hist K)) (h : Hist K) (f : Nat) :
    edgesOf (hs ++ [h]) f = if f = hs.length then h.edges.getD [] else edgesOf hs f := by
  unfold edgesOf
  split_ifs with hf
  · subst hf
    simp
  · rcases Nat.lt_or_ge f hs.length with h1 | h1
    · rw [List.getElem?_append_left h1]
    · rw [List.getElem?_eq_none (by simp; omega), List.getElem?_eq_none h1]

theorem binParams_recode {φ : Nat → K → K} {ψ : K → K} {data data' : List (List K)} {labels labels' : List K}
    (h : NodeRecode φ ψ data labels data' labels') (hφ : ∀ f, StrictMono (φ f)) {mm : Option (List K × List K)}
    {d : DiscDict K} {uf : Option (DiscVals K)} {bt : BinType} {f : Nat} {c c' : List K} (hc : c'.Perm (c.map (φ f)))
    {cur nb nb' : Nat} {lo hi lo' hi' : K} (hp : binParams data mm d uf bt f c cur = .ok (lo, hi, nb))
    (hp' : binParams data' (recodeMinmax φ mm) d uf bt f c' cur = .ok (lo', hi', nb')) :
    nb' = nb ∧ (bt = .linear ∨ bt = .random → lo' = φ f lo ∧ hi' = φ f hi) := by
  have hr : ∀ {lo hi lo' hi' : K} {nb nb' : Nat},
      (match npMin c, npMax c with
        | some lo, some hi => (.ok (lo, hi, cur) : Except Err (K × K × Nat))
        | _, _ => .error .valueError) = .ok (lo, hi, nb) →
      (match npMin c', npMax c' with
        | some lo, some hi => (.ok (lo, hi, cur) : Except Err (K × K × Nat))
        | _, _ => .error .valueError) = .ok (lo', hi', nb') → nb' = nb ∧ lo' = φ f lo ∧ hi' = φ f hi := by
    intro lo hi lo' hi' nb nb' q q'
    split at q
    · rename_i a b ha hb
      split at q'
      · rename_i a' b' ha' hb'
        cases q
        cases q'
        exact ⟨rfl, npMin_recode (hφ f) hc ha ha', npMax_recode (hφ f) hc hb hb'⟩
      · cases q'
    · cases q
  cases bt with
  | discrete =>
    unfold binParams at hp hp'
    simp only [] at hp hp'
    split at hp
    · cases hp
    · cases hp
    · cases hp
      cases hp'
      exact ⟨rfl, fun q => by rcases q with q | q <;> cases q⟩
  | identity =>
    cases hp
    cases hp'
    exact ⟨h.length_eq, fun q => by rcases q with q | q <;> cases q⟩
  | random =>
    obtain ⟨q1, q2⟩ := hr hp hp'
    exact ⟨q1, fun _ => q2⟩
  | linear =>
    cases mm with
    | none =>
      obtain ⟨q1, q2⟩ := hr hp hp'
      exact ⟨q1, fun _ => q2⟩
    | some m =>
      unfold binParams recodeMinmax at hp'
      unfold binParams at hp
      simp only [Option.map_some, recodeRow_get?] at hp hp'
      split at hp
      · rename_i a b ha hb
        rw [ha, hb] at hp'
        cases hp
        cases hp'
        exact ⟨rfl, fun _ => ⟨rfl, rfl⟩⟩
      · cases hp

theorem makeEdges_recode {R : Rng K G} {φ : K → K} (hφ : StrictMono φ) {bt : BinType}
    (hgrid : bt = .identity ∨ (bt = .linear ∧ ∃ a b : K, ∀ x, φ x = a * x + b) ∨ ∀ x, φ x = x)
    {uf : Option (DiscVals K)} {c c' : List K} (hc : c'.Perm (c.map φ)) {nb : Nat} {lo hi lo' hi' : K}
    (hlh : bt = .linear ∨ bt = .random → lo' = φ lo ∧ hi' = φ hi) {g g' g1 g1' : G} (hg : bt = .random → g' = g)
    {e e' : Option (List K)} {n n' : Nat} (h : makeEdges R g bt uf c nb lo hi = .ok (e, n, g1))
    (h' : makeEdges R g' bt uf c' nb lo' hi' = .ok (e', n', g1')) :
    e' = e.map (List.map φ) ∧ n' = n ∧ (g' = g → g1' = g1) := by
  cases bt with
  | linear =>
    obtain ⟨h1, h2⟩ := hlh (Or.inl rfl)
    obtain ⟨a, b, hab⟩ : ∃ a b : K, ∀ x, φ x = a * x + b := by
      rcases hgrid with q | q | q
      · cases q
      · exact q.2
      · exact ⟨1, 0, fun x => by rw [q]; ring⟩
    unfold makeEdges at h h'
    simp only [h1, h2, hφ.injective.eq_iff] at h h'
    split_ifs at h h'
    · cases h
      cases h'
      exact ⟨rfl, rfl, id⟩
    · cases h
      cases h'
      refine ⟨?_, rfl, id⟩
      rw [hab lo, hab hi, linspace_affine]
      simp only [Option.map_some, Option.some.injEq]
      exact List.map_congr_left (fun x _ => (hab x).symm)
  | identity =>
    cases h
    cases h'
    rw [npUnique_recode hφ hc]
    exact ⟨rfl, by simp, id⟩
  | random =>
    obtain ⟨h1, h2⟩ := hlh (Or.inr rfl)
    have hid : ∀ x, φ x = x := by
      rcases hgrid with q | q | q
      · cases q
      · cases q.1
      · exact q
    have hm : List.map φ = id := by
      funext l
      rw [List.map_congr_left (fun x _ => hid x)]
      simp
    rw [h1, h2, hid, hid, hg rfl] at h'
    cases h
    cases h'
    refine ⟨?_, rfl, fun _ => rfl⟩
    rw [hm]
    rfl
  | discrete =>
    have hid : ∀ x, φ x = x := by
      rcases hgrid with q | q | q
      · cases q
      · cases q.1
      · exact q
    have hm : List.map φ = id := by
      funext l
      rw [List.map_congr_left (fun x _ => hid x)]
      simp
    unfold makeEdges at h h'
    simp only [] at h h'
    split at h
    · cases h
    · split at h
      · cases h
      · rename_i es hes
        simp only [hes] at h'
        cases h
        cases h'
        refine ⟨?_, rfl, id⟩
        rw [hm]
        rfl

theorem makeHistStep_recode {R : Rng K G} {isCls : Bool} {φ : Nat → K → K} {ψ : K → K} {data data' : List (List K)}
    {labels labels' cl cl' : List K} {mm : Option (List K × List K)} {d : DiscDict K} {binType : Option BinType} {B f : Nat}
    {st st' s1 s1' : Hists K G} (h : NodeRecode φ ψ data labels data' labels') (hφ : ∀ f, StrictMono (φ f))
    (hgrid : GridOK binType φ) {P : Prop} (hP : binType = some .random → P) (hst : HistsRecode P φ st st') (hlen : st.hists.length = f)
    (hs : makeHistStep R isCls data cl mm d binType B f st = .ok s1)
    (hs' : makeHistStep R isCls data' cl' (recodeMinmax φ mm) d binType B f st' = .ok s1') :
    HistsRecode P φ s1 s1' ∧ s1.hists.length = f + 1 := by
  rw [makeHistStep_eq] at hs hs'
  split at hs
  · cases hs
  rename_i c hc
  split at hs
  · cases hs
  rename_i lo hi nb hpar
  split at hs
  · cases hs
  rename_i hh g1 hinit
  split at hs'
  · cases hs'
  rename_i c' hc'
  split at hs'
  · cases hs'
  rename_i lo' hi' nb' hpar'
  split at hs'
  · cases hs'
  rename_i hh' g1' hinit'
  have hcc := h.col hc hc'
  have hbt : binTypeFor d binType data'.length B f = binTypeFor d binType data.length B f := by rw [h.length_eq]
  rw [hbt] at hpar' hinit'
  rw [hst.bins] at hpar'
  obtain ⟨e1, e2⟩ := binParams_recode h hφ hcc hpar hpar'
  subst e1
  have hg' : binTypeFor d binType data.length B f = .identity ∨
      (binTypeFor d binType data.length B f = .linear ∧ ∃ a b : K, ∀ x, φ f x = a * x + b) ∨ ∀ x, φ f x = x := by
    rcases hgrid with q | q | q
    · left; rw [q]; rfl
    · right; left; rw [q.1]; exact ⟨rfl, q.2 f⟩
    · right; right; exact q f
  have hrand : binTypeFor d binType data.length B f = .random → binType = some .random := by
    unfold binTypeFor
    split
    · rintro rfl; rfl
    · intro q
      unfold chooseBinType at q
      split at q <;> split_ifs at q
  unfold Hist.init at hinit hinit'
  split at hinit
  · cases hinit
  rename_i e n g2 he
  split at hinit'
  · cases hinit'
  rename_i e' n' g2' he'
  cases hinit
  cases hinit'
  obtain ⟨r1, r2, r3⟩ := makeEdges_recode (hφ f) hg' hcc e2 (fun q => hst.gen (hP (hrand q))) he he'
  subst r2
  cases hs
  cases hs'
  refine ⟨⟨?_, ?_, ?_, ?_, rfl, ?_⟩, ?_⟩
  · simp [hst.len]
  · intro f'
    simp only [edgesOf_append, hst.len]
    split_ifs with hf
    · simp only [Hist.mk', r1]
      have : f' = f := by omega
      subst this
      cases e <;> rfl
    · exact hst.edges f'
  · simp only [hst.cons]; rfl
  · simp only [hst.notCons]; rfl
  · exact fun q => r3 (hst.gen q)
  · simp [hlen]

theorem makeHistLoop_recode {R : Rng K G} {isCls : Bool} {φ : Nat → K → K} {ψ : K → K} {data data' : List (List K)}
    {labels labels' cl cl' : List K} {mm : Option (List K × List K)} {d : DiscDict K} {binType : Option BinType} {B : Nat}
    (h : NodeRecode φ ψ data labels data' labels') (hφ : ∀ f, StrictMono (φ f)) (hgrid : GridOK binType φ) {P : Prop} (hP : binType = some .random → P)
    (n : Nat) :
    ∀ {k : Nat} {st st' s1 s1' : Hists K G}, HistsRecode P φ st st' → st.hists.length = k →
    makeHistLoop R isCls data cl mm d binType B (List.range' k n) st = .ok s1 →
    makeHistLoop R isCls data' cl' (recodeMinmax φ mm) d binType B (List.range' k n) st' = .ok s1' →
    HistsRecode P φ s1 s1' := by
  induction n with
  | zero =>
    intro k st st' s1 s1' hst _ hs hs'
    cases hs
    cases hs'
    exact hst
  | succ n ih =>
    intro k st st' s1 s1' hst hlen hs hs'
    rw [List.range'_succ] at hs hs'
    unfold makeHistLoop at hs hs'
    split at hs
    · cases hs
    rename_i s2 h2
    split at hs'
    · cases hs'
    rename_i s2' h2'
    obtain ⟨a, b⟩ := makeHistStep_recode h hφ hgrid hP hst hlen h2 h2'
    exact ih a b hs hs'

theorem makeHistograms_recode {R : Rng K G} {g g' : G} {isCls : Bool} {φ : Nat → K → K} {ψ : K → K}
    {row row' : List K} {rest rest' : List (List K)} {labels labels' : List K} {mm : Option (List K × List K)}
    {d : DiscDict K} {binType : Option BinType} {B : Nat} {hs hs' : Hists K G}
    (h : NodeRecode φ ψ (row :: rest) labels (row' :: rest') labels') (hφ : ∀ f, StrictMono (φ f)) (hgrid : GridOK binType φ)
    (hlen : row'.length = row.length) {P : Prop} (hP : binType = some .random → P) (hg : P → g' = g)
    (hm : makeHistograms R g isCls (row :: rest) labels mm d binType B = .ok hs)
    (hm' : makeHistograms R g' isCls (row' :: rest') labels' (recodeMinmax φ mm) d binType B = .ok hs') :
    HistsRecode P φ hs hs' := by
  unfold makeHistograms at hm hm'
  simp only [hlen, List.range_eq_range'] at hm hm'
  refine makeHistLoop_recode h hφ hgrid hP row.length (k := 0) (st := { hists := [], notCons := [], cons := [], numBins := B, g := g })
    (st' := { hists := [], notCons := [], cons := [], numBins := B, g := g' }) ⟨rfl, fun f => rfl, rfl, rfl, rfl, hg⟩ rfl hm hm'

/-! ### `solve_exactly` -/

/-- The answer of the solver in the second run. -/
def recodeSplit (φ : Nat → K → K) (s : K) (r : SplitRes K) : SplitRes K :=
  { feat := r.feat, value := φ r.feat r.value, red := (XF.fin s).mul r.red }

theorem solveExactly_recode {R : Rng K G} {g1 g1' g2 g2' : G} {junk junk' : Mat K} {φ : Nat → K → K} {ψ : K → K} {s : K}
    {data data' : List (List K)} {labels labels' : List K} {mm : Option (List K × List K)}
    {d : DiscDict K} {binType : Option BinType} {numBins : Option Nat} {isCls : Bool} {m : Criterion}
    {r r' : Option (SplitRes K)} {nq nq' F : Nat}
    (hd : ∀ row ∈ data, row.length = F) (hd' : ∀ row ∈ data', row.length = F)
    (h : NodeRecode φ ψ data labels data' labels') (hφ : ∀ f, StrictMono (φ f)) (hgrid : GridOK binType φ)
    (hs : 0 < s) (himp : ∀ ys : List K, critImp m (ys.map ψ) = s * critImp m ys)
    {P : Prop} (hP : binType = some .random → P) (hg : P → g1' = g1)
    (hm : CritFits isCls m) (hb : ∀ B, exactBins data binType numBins = some B → BinningOK mm d binType B)
    (hb' : ∀ B, exactBins data' binType numBins = some B → BinningOK (recodeMinmax φ mm) d binType B)
    (hok : solveExactly R g1 junk data labels mm d binType numBins isCls m = .ok (r, nq, g2))
    (hok' : solveExactly R g1' junk' data' labels' (recodeMinmax φ mm) d binType numBins isCls m = .ok (r', nq', g2')) :
    r' = r.map (recodeSplit φ s) ∧ nq' = nq ∧ (P → g2' = g2) ∧
      ∀ x, r = some x → x.feat < F ∧ ∃ c, x.red = .fin c := by
  obtain ⟨row, rest, B, hs1, arm, rfl, e⟩ := solveExactly_run hm hb hok
  obtain ⟨row', rest', B', hs1', arm', rfl, e'⟩ := solveExactly_run hm hb' hok'
  have hF := hd row List.mem_cons_self
  have hF' := hd' row' List.mem_cons_self
  have hBB : B' = B := by
    have a := e.bins
    have b := e'.bins
    unfold exactBins at a b
    rw [h.length_eq, a] at b
    exact (Option.some.inj b).symm
  subst hBB
  have hh := makeHistograms_recode h hφ hgrid (hF'.trans hF.symm) hP hg e.make e'.make
  have hc : candArms row'.length B' hs1' = candArms row.length B' hs1 := by
    unfold candArms
    rw [hh.notCons, hh.cons, hF, hF']
  have hch : ∀ a ∈ candArms row.length B' hs1, armChange (row' :: rest') labels' (edgesOf hs1'.hists) m a =
      s * armChange (row :: rest) labels (edgesOf hs1.hists) m a := by
    intro a ha
    have hv := e.good.cands_valid a ha
    unfold armChange
    rw [hh.edges, List.getD_eq_getElem _ _ (by simpa using hv.2), List.getElem_map, List.getD_eq_getElem _ _ hv.2]
    refine change_recode (critImp_perm m) (hφ a.1) himp (h.samples ?_) _
    intro rw' hr
    rw [hd rw' hr, ← hF]
    exact hv.1
  have harm : arm' = arm := by
    have m1 := e.arm_mem
    have m2 := e'.arm_mem
    rw [hc] at m2
    by_contra hne
    have tri : ArmLt arm' arm ∨ ArmLt arm arm' := by
      unfold ArmLt
      rcases lt_trichotomy arm'.1 arm.1 with q | q | q
      · left; left; exact q
      · rcases lt_trichotomy arm'.2 arm.2 with q2 | q2 | q2
        · left; right; exact ⟨q, q2⟩
        · exact absurd (Prod.ext q q2) hne
        · right; right; exact ⟨q.symm, q2⟩
      · right; left; exact q
    rcases tri with q | q
    · have a := e.first _ m2 q
      have b := e'.best arm (by rw [hc]; exact m1)
      rw [hch _ m1, hch _ m2] at b
      exact absurd (lt_of_mul_lt_mul_left (lt_of_le_of_lt b (mul_lt_mul_of_pos_left a hs)) hs.le) (lt_irrefl _)
    · have a := e'.first arm (by rw [hc]; exact m1) q
      have b := e.best _ m2
      rw [hch _ m1, hch _ m2] at a
      exact absurd (lt_of_le_of_lt (mul_le_mul_of_nonneg_left b hs.le) a) (lt_irrefl _)
  subst harm
  have hval := e.good.cands_valid _ e.arm_mem
  refine ⟨?_, ?_, ?_, ?_⟩
  · rw [e.result, e'.result, hch _ e.arm_mem]
    have hneg : s * armChange (row :: rest) labels (edgesOf hs1.hists) m arm' < 0 ↔
        armChange (row :: rest) labels (edgesOf hs1.hists) m arm' < 0 := by
      constructor
      · intro q
        by_contra q2
        exact absurd q (not_lt.2 (mul_nonneg hs.le (not_lt.1 q2)))
      · intro q
        exact mul_neg_of_pos_of_neg hs q
    simp only [hneg]
    split_ifs
    · simp only [Option.map_some, recodeSplit, XF.mul]
      rw [hh.edges, List.getD_eq_getElem _ _ (by simpa using hval.2), List.getElem_map, List.getD_eq_getElem _ _ hval.2]
    · rfl
  · rw [e.nq_eq, e'.nq_eq, hc, h.length_eq]
  · intro q
    rw [e.gen, e'.gen]
    exact hh.gen q
  · intro x hx
    rw [e.result] at hx
    split_ifs at hx
    obtain rfl := Option.some.inj hx
    refine ⟨?_, _, rfl⟩
    rw [← hF]
    exact hval.1

end FF
