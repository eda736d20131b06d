import Verif.Proofs.RecodeForest
import Verif.Props.ForestEx
import Verif.Props.ForestTotal
import Verif.Props.ForestPredict

set_option linter.unusedSectionVars false

/-! Two whole runs of a forest, on samples that correspond to each other. -/

namespace FF

open Spec

variable {K : Type} [Field K] [LinearOrder K] [IsStrictOrderedRing K] [FloorRing K] [NpFun K] {G : Type}
variable {R : Rng K G} {mem mem' : Nat → Nat → Junk K}

/-! ### Impurity and means of recoded labels -/

theorem freq_map {ψ : K → K} (h : Function.Injective ψ) (ys : List K) (c : K) : freq (ys.map ψ) (ψ c) = freq ys c := by
  unfold freq
  rw [List.length_map, List.count_map_of_injective _ _ h]

theorem critImp_inj {m : Criterion} (hm : m = .gini ∨ m = .entropy) {ψ : K → K} (h : Function.Injective ψ) (ys : List K) :
    critImp m (ys.map ψ) = critImp m ys := by
  have hd : (ys.map ψ).dedup = ys.dedup.map ψ := List.dedup_map_of_injective h ys
  rcases hm with rfl | rfl
  · show gini (ys.map ψ) = gini ys
    unfold gini
    rw [hd, List.map_map]
    simp only [Function.comp_def, freq_map h]
  · show entropy _ (ys.map ψ) = entropy _ ys
    unfold entropy
    rw [hd, List.map_map]
    simp only [Function.comp_def, freq_map h]

theorem sum_affine (a b : K) (ys : List K) : (ys.map (fun y => a * y + b)).sum = a * ys.sum + (ys.length : K) * b := by
  induction ys with
  | nil => simp
  | cons y ys ih =>
    rw [List.map_cons, List.sum_cons, List.sum_cons, ih, List.length_cons]
    push_cast
    ring

theorem npMean_affine (a b : K) {ys : List K} (h : ys ≠ []) : npMean (ys.map (fun y => a * y + b)) = a * npMean ys + b := by
  unfold npMean
  have : (ys.length : K) ≠ 0 := Nat.cast_ne_zero.2 (fun q => h (List.length_eq_zero_iff.1 q))
  rw [sum_affine, List.length_map]
  field_simp

theorem variance_affine (a b : K) (ys : List K) : variance (ys.map (fun y => a * y + b)) = a ^ 2 * variance ys := by
  by_cases h : ys = []
  · subst h
    simp [variance, mean]
  · have hm : mean (ys.map (fun y => a * y + b)) = a * mean ys + b := npMean_affine a b h
    unfold variance
    rw [hm, List.map_map]
    have e : ((fun y => (y - (a * mean ys + b)) ^ 2) ∘ fun y => a * y + b) = (fun y => a ^ 2 * y + 0) ∘ (fun y => (y - mean ys) ^ 2) := by
      funext y
      simp only [Function.comp]
      ring
    rw [e, ← List.map_map]
    exact (npMean_affine _ _ (by simpa using h)).trans (add_zero _)

/-! ### The answers of a forest -/

theorem mapM_recode {G1 : Type} {ts : List (Tree K G)} {ts' : List (Tree K G1)} {p : Tree K G → Except Err (Pred K)}
    {p' : Tree K G1 → Except Err (Pred K)} (c : Nat → K → K) (hlen : ts'.length = ts.length)
    (h : ∀ (j : Nat) (t : Tree K G) (t' : Tree K G1), ts[j]? = some t → ts'[j]? = some t' → p' t' = (p t).map (recodePred (c j))) :
    ts'.mapM p' = (ts.mapM p).map (fun ps => ps.mapIdx (fun j q => recodePred (c j) q)) := by
  induction ts generalizing ts' c with
  | nil =>
    obtain rfl := List.length_eq_zero_iff.1 hlen
    rfl
  | cons t ts ih =>
    cases ts' with
    | nil => cases hlen
    | cons t' ts' =>
      rw [List.mapM_cons, List.mapM_cons, h 0 t t' rfl rfl]
      rw [ih (fun j => c (j + 1)) (by simpa using hlen) (fun j u u' hu hu' => h (j + 1) u u' hu hu')]
      cases p t with
      | error e => rfl
      | ok q =>
        cases ts.mapM p with
        | error e => rfl
        | ok qs =>
          show (Except.ok (_ :: _) : Except Err _) = Except.ok (List.mapIdx _ (_ :: _))
          rw [List.mapIdx_cons]

theorem mapIdx_map {α β γ : Type} {f : Nat → α → β} {g : β → γ} {h : α → γ} (hgf : ∀ j q, g (f j q) = h q) {l : List α} :
    (l.mapIdx f).map g = l.map h := by
  apply List.ext_getElem?
  intro j
  rw [List.getElem?_map, List.getElem?_mapIdx, List.getElem?_map]
  cases l[j]? with
  | none => rfl
  | some q => exact congrArg some (hgf j q)

theorem recodePred_probs (ψ : K → K) (p : Pred K) : (recodePred ψ p).probs = p.probs := by
  cases p <;> rfl

theorem recodePred_value (ψ : K → K) (p : Pred K) : (recodePred ψ p).value = ψ p.value := by
  cases p <;> rfl

/-- How the labels may be recoded: any increasing map of class labels, or an affine map of the targets. -/
structure LabelMap (isCls : Bool) (ψ ψ1 : K → K) (s : K) : Prop where
  cls : isCls = true → Function.Injective ψ ∧ (∀ y, ψ1 y = y) ∧ s = 1
  reg : isCls = false → ∃ a b : K, a ≠ 0 ∧ (∀ y, ψ y = a * y + b) ∧ (∀ y, ψ1 y = a * y) ∧ s = a ^ 2

theorem boostSum_affine (a b lr : K) (v : K) (vs : List K) :
    boostSum lr ((a * v + b) :: vs.map (fun y => a * y)) = a * boostSum lr (v :: vs) + b := by
  rw [boostSum_eq, boostSum_eq]
  have := sum_affine a 0 vs
  simp only [add_zero, mul_zero] at this
  rw [this]
  ring

theorem forestAnswer_recode {cfg cfg' : ForestCfg K} {classes classes' : ClassDict K} {ψ ψ1 : K → K} {s : K}
    (hl : LabelMap cfg.isCls ψ ψ1 s) (hb : cfg.boosting = true → cfg.isCls = false) (hcfg : cfg' = { cfg with minImpDec := s * cfg.minImpDec })
    (hc : classes' = classes.map (fun c => (ψ c.1, c.2))) (ps : List (Pred K)) :
    forestAnswer cfg' classes' (ps.mapIdx (fun j q => recodePred (psiAt cfg.boosting ψ ψ1 j) q)) =
      (forestAnswer cfg classes ps).map (recodePred ψ) := by
  subst hcfg hc
  have hnil : ps.mapIdx (fun j q => recodePred (psiAt cfg.boosting ψ ψ1 j) q) = [] ↔ ps = [] := List.mapIdx_eq_nil_iff
  cases hcls : cfg.isCls with
  | true =>
    have hb0 : cfg.boosting = false := by
      cases hb1 : cfg.boosting with
      | false => rfl
      | true => rw [hb hb1] at hcls; cases hcls
    have hp : (ps.mapIdx (fun j q => recodePred (psiAt cfg.boosting ψ ψ1 j) q)).map Pred.probs = ps.map Pred.probs := by
      exact mapIdx_map (fun j q => recodePred_probs _ q)
    unfold forestAnswer
    simp only [hcls, if_true, hp, hnil, List.length_map]
    by_cases h0 : ps = []
    · rw [if_pos h0, if_pos h0]
      rfl
    rw [if_neg h0, if_neg h0]
    cases npArgmax (avgProbs classes.length (ps.map Pred.probs)) with
    | none => rfl
    | some i =>
      simp only [List.getElem?_map]
      cases classes[i]? with
      | none => rfl
      | some c => rfl
  | false =>
    obtain ⟨a, b, ha, h1, h2, h3⟩ := hl.reg hcls
    unfold forestAnswer
    simp only [hcls, Bool.false_eq_true, if_false, hnil]
    cases hb1 : cfg.boosting with
    | true =>
      simp only [if_true]
      by_cases h0 : ps = []
      · rw [if_pos h0, if_pos h0]
        rfl
      rw [if_neg h0, if_neg h0]
      obtain ⟨q, qs, rfl⟩ := List.exists_cons_of_ne_nil h0
      have e : (List.mapIdx (fun j q => recodePred (psiAt true ψ ψ1 j) q) (q :: qs)).map Pred.value =
          (a * q.value + b) :: (qs.map Pred.value).map (fun y => a * y) := by
        rw [List.mapIdx_cons, List.map_cons, recodePred_value, List.map_map]
        refine congrArg₂ _ ?_ ?_
        · exact h1 _
        · exact mapIdx_map (fun j q => (recodePred_value _ q).trans (h2 _))
      rw [e, boostSum_affine]
      show Except.ok (Pred.reg _) = Except.ok (Pred.reg (ψ _))
      rw [h1]
      rfl
    | false =>
      simp only [Bool.false_eq_true, if_false]
      by_cases h0 : ps = []
      · rw [if_pos h0, if_pos h0]
        rfl
      rw [if_neg h0, if_neg h0]
      have e : (List.mapIdx (fun j q => recodePred (psiAt false ψ ψ1 j) q) ps).map Pred.value =
          (ps.map Pred.value).map (fun y => a * y + b) := by
        rw [List.map_map]
        exact mapIdx_map (fun j q => (recodePred_value _ q).trans (h1 _))
      rw [e, npMean_affine _ _ (by simpa using h0)]
      show Except.ok (Pred.reg _) = Except.ok (Pred.reg (ψ _))
      rw [h1]

/-! ### From the constructors -/

theorem zip_eq_range (data : List (List K)) (labels : List K) (h : data.length = labels.length) :
    (List.range data.length).map (fun i => (data.getD i [], labels.getD i 0)) = data.zip labels := by
  apply List.ext_getElem
  · simp [h]
  · intro i h1 h2
    have hi : i < data.length := by simpa using h1
    simp [List.getElem?_eq_getElem hi, List.getElem?_eq_getElem (h ▸ hi : i < labels.length)]

theorem colMinMax_recode {φ : Nat → K → K} (hφ : ∀ f, StrictMono (φ f)) {data data' : List (List K)} {F : Nat} (hne : data ≠ [])
    (hrect : ∀ row ∈ data, row.length = F) (hp : data'.Perm (data.map (recodeRow φ))) :
    colMinMax data' F = (recodeRow φ (colMinMax data F).1, recodeRow φ (colMinMax data F).2) := by
  have hcol : ∀ j, j < F → (data'.map (fun r => r.getD j 0)).Perm ((data.map (fun r => r.getD j 0)).map (φ j)) := by
    intro j hj
    refine (hp.map _).trans (List.Perm.of_eq ?_)
    rw [List.map_map, List.map_map]
    exact List.map_congr_left (fun r hr => recodeRow_getD φ (by rw [hrect r hr]; exact hj))
  have hne' : data' ≠ [] := by
    intro q
    rw [q] at hp
    exact hne (by simpa using hp.symm.eq_nil)
  unfold colMinMax
  refine Prod.ext ?_ ?_
  · apply List.ext_getElem?
    intro j
    rw [recodeRow_get?, List.getElem?_map, List.getElem?_map]
    cases hj : (List.range F)[j]? with
    | none => rfl
    | some k =>
      obtain ⟨hj1, hj2⟩ := List.getElem?_eq_some_iff.1 hj
      have hkj : k = j := by simpa using hj2.symm
      subst hkj
      simp only [Option.map_some, Option.some.injEq]
      obtain ⟨a, ha⟩ := npMin_isSome (l := data.map (fun r => r.getD k 0)) (by simpa using hne)
      obtain ⟨b, hb⟩ := npMin_isSome (l := data'.map (fun r => r.getD k 0)) (by simpa using hne')
      rw [ha, hb]
      exact npMin_recode (hφ k) (hcol k (by simpa using hj1)) ha hb
  · apply List.ext_getElem?
    intro j
    rw [recodeRow_get?, List.getElem?_map, List.getElem?_map]
    cases hj : (List.range F)[j]? with
    | none => rfl
    | some k =>
      obtain ⟨hj1, hj2⟩ := List.getElem?_eq_some_iff.1 hj
      have hkj : k = j := by simpa using hj2.symm
      subst hkj
      simp only [Option.map_some, Option.some.injEq]
      obtain ⟨a, ha⟩ := npMax_isSome (l := data.map (fun r => r.getD k 0)) (by simpa using hne)
      obtain ⟨b, hb⟩ := npMax_isSome (l := data'.map (fun r => r.getD k 0)) (by simpa using hne')
      rw [ha, hb]
      exact npMax_recode (hφ k) (hcol k (by simpa using hj1)) ha hb

theorem Forest_init_more {w w' : World K G} {cfg : ForestCfg K} {data : Option (List (List K))} {r : Nat} {budget : Option Int}
    {f : Forest K G} (h : Forest.init R w cfg none data (some r) budget = .ok (f, w')) :
    f.classes = (if cfg.isCls then classToIdx (npUnique (w.arrays.getD r [])) else []) ∧ f.discrete = none ∧
      f.rng = R.seed cfg.randomState ∧ (cfg.boosting = true → cfg.isCls = false) := by
  unfold Forest.init at h
  simp only [] at h
  split_ifs at h with h1 h2 h3 <;> cases h <;> refine ⟨by simp_all, rfl, rfl, fun hb => ?_⟩ <;> simp_all

theorem classToIdx_map (ψ : K → K) (l : List K) : classToIdx (l.map ψ) = (classToIdx l).map (fun c => (ψ c.1, c.2)) := by
  unfold classToIdx
  rw [List.length_map, List.zip_map_left]
  rfl

/-- The samples of two runs: every sample of the first, recoded, is a sample of the second. With bootstrap, random subsets or MABSplit the
order of the rows counts; so it does with boosting on random rows, where the residuals must be recoded as the targets are. -/
structure RunRecode (cfg : ForestCfg K) (φ : Nat → K → K) (ψ ψ1 : K → K) (data data' : List (List K)) (labels labels' : List K) : Prop where
  lens : data.length = labels.length
  lens' : data'.length = labels'.length
  samples : ((cfg.boosting = false ∨ ∀ y, ψ y = ψ1 y) ∧ data'.zip labels' = (data.zip labels).map (recodeSample φ ψ)) ∨
    (cfg.bootstrap = false ∧ ¬ (cfg.alphaN < 1 ∨ cfg.alphaF < 1) ∧ (data'.zip labels').Perm ((data.zip labels).map (recodeSample φ ψ)) ∧
      (cfg.solver ≠ .exact → data'.zip labels' = (data.zip labels).map (recodeSample φ ψ)))

theorem RunRecode.perm {cfg : ForestCfg K} {φ : Nat → K → K} {ψ ψ1 : K → K} {data data' : List (List K)} {labels labels' : List K}
    (h : RunRecode cfg φ ψ ψ1 data data' labels labels') : (data'.zip labels').Perm ((data.zip labels).map (recodeSample φ ψ)) := by
  rcases h.samples with ⟨_, h⟩ | ⟨_, _, h, _⟩
  · exact List.Perm.of_eq h
  · exact h

theorem RunRecode.data {cfg : ForestCfg K} {φ : Nat → K → K} {ψ ψ1 : K → K} {data data' : List (List K)} {labels labels' : List K}
    (h : RunRecode cfg φ ψ ψ1 data data' labels labels') : data'.Perm (data.map (recodeRow φ)) := by
  have := h.perm.map Prod.fst
  rw [List.map_fst_zip h.lens'.le, List.map_map] at this
  refine this.trans (List.Perm.of_eq ?_)
  conv_rhs => rw [← List.map_fst_zip h.lens.le]
  rw [List.map_map]
  rfl

theorem RunRecode.labels {cfg : ForestCfg K} {φ : Nat → K → K} {ψ ψ1 : K → K} {data data' : List (List K)} {labels labels' : List K}
    (h : RunRecode cfg φ ψ ψ1 data data' labels labels') : labels'.Perm (labels.map ψ) := by
  have := h.perm.map Prod.snd
  rw [List.map_snd_zip h.lens'.ge, List.map_map] at this
  refine this.trans (List.Perm.of_eq ?_)
  conv_rhs => rw [← List.map_snd_zip h.lens.ge]
  rw [List.map_map]
  rfl

/-- The configuration of the second run. -/
def scaleCfg (s : K) (cfg : ForestCfg K) : ForestCfg K := { cfg with minImpDec := s * cfg.minImpDec }

/-- The two runs answer alike. -/
structure RunsAlike (φ : Nat → K → K) (ψ : K → K) (f f' : Forest K G) : Prop where
  predict : ∀ x, (f'.predict (recodeRow φ x)).map Prod.fst = ((f.predict x).map Prod.fst).map (recodePred ψ)
  trees : f'.trees.length = f.trees.length
  queries : f'.numQueries = f.numQueries

theorem runForest_recode {w w' : World K G} {cfg : ForestCfg K} {data data' : List (List K)} {r r' : Nat} {budget : Option Int}
    {φ : Nat → K → K} {ψ ψ1 : K → K} {s : K} {F : Nat} {f f' : Forest K G} {w1 w1' : World K G}
    (hrun : RunRecode cfg φ ψ ψ1 data data' (w.arrays.getD r []) (w'.arrays.getD r' []))
    (hrect : ∀ row ∈ data, row.length = F) (hmono : ∀ f, StrictMono (φ f)) (hgrid : GridOK cfg.binType φ)
    (hdisc : cfg.binType = some .linear ∨ cfg.binType = some .identity ∨ cfg.makeDiscrete = false)
    (hl : LabelMap cfg.isCls ψ ψ1 s)
    (hcls : cfg.isCls = true → StrictMono ψ ∧ ∀ y ∈ w.arrays.getD r [], truncInt (ψ y) = ψ (truncInt y))
    (hex : cfg.solver = .exact ∨ (SameCost cfg.isCls ψ ∧ SameCost cfg.isCls ψ1 ∧ s = 1 ∧ mem' = mem)) (hbins : cfg.useLog = false → cfg.numBins ≠ some 1)
    (hf : runForest R mem w cfg data r budget = .ok (f, w1))
    (hf' : runForest R mem' w' (scaleCfg s cfg) data' r' budget = .ok (f', w1')) : RunsAlike φ ψ f f' := by
  unfold runForest at hf hf'
  cases hi : Forest.init R w cfg none (some data) (some r) budget with
  | error e => rw [hi] at hf; cases hf
  | ok q =>
  obtain ⟨fi, wi⟩ := q
  rw [hi] at hf
  replace hf : Forest.fit R mem fi wi none none = .ok (f, w1) := hf
  cases hi' : Forest.init R w' (scaleCfg s cfg) none (some data') (some r') budget with
  | error e => rw [hi'] at hf'; cases hf'
  | ok q =>
  obtain ⟨fi', wi'⟩ := q
  rw [hi'] at hf'
  replace hf' : Forest.fit R mem' fi' wi' none none = .ok (f', w1') := hf'
  obtain ⟨a1, a2, a3, a4, a5, a6, a7, a8, a9, a10⟩ := Forest_init_fields hi
  obtain ⟨b1, b2, b3, b4, b5, b6, b7, b8, b9, b10⟩ := Forest_init_fields hi'
  obtain ⟨c1, c2, c3, c4⟩ := Forest_init_more hi
  obtain ⟨d1, d2, d3, d4⟩ := Forest_init_more hi'
  obtain ⟨dat, f0, w0, st, hloop⟩ := Forest_fit_start hf
  obtain ⟨dat', f0', w0', st', hloop'⟩ := Forest_fit_start hf'
  have hdat : dat = data := by rw [st.dat_eq]; unfold trainData; rw [a8]; rfl
  have hdat' : dat' = data' := by rw [st'.dat_eq]; unfold trainData; rw [b8]; rfl
  subst hdat hdat'
  have hne := st.ne
  have hlen : dat'.length = dat.length := by rw [hrun.data.length_eq, List.length_map]
  have hcfg : fi'.cfg = { fi.cfg with minImpDec := s * fi.cfg.minImpDec } := by rw [b1, a1]; rfl
  have hF : (dat.getD 0 []).length = F := by
    obtain ⟨row, rows, rfl⟩ := List.exists_cons_of_ne_nil hne
    exact hrect _ (by simp)
  have hF' : (dat'.getD 0 []).length = F := by
    have hm : dat'.getD 0 [] ∈ dat' := by
      obtain ⟨row, rows, rfl⟩ := List.exists_cons_of_ne_nil st'.ne
      simp
    obtain ⟨row, hrow, he⟩ := List.mem_map.1 (hrun.data.mem_iff.1 hm)
    rw [← he, recodeRow_length]
    exact hrect _ hrow
  have hmake : fi.cfg.makeDiscrete = false := by
    rw [a1]
    show (if cfg.binType = some .linear ∨ cfg.binType = some .identity then false else cfg.makeDiscrete) = false
    split_ifs with h
    · rfl
    · rcases hdisc with h1 | h1 | h1
      · exact absurd (Or.inl h1) h
      · exact absurd (Or.inr h1) h
      · exact h1
  have hdc : f0.discrete = none := by
    have := st.disc
    unfold maybeDiscrete at this
    rw [hmake, if_neg (by simp)] at this
    rw [← Except.ok.inj this]
    exact c2
  have hdc' : f0'.discrete = none := by
    have := st'.disc
    unfold maybeDiscrete at this
    rw [hcfg] at this
    rw [show ({ fi.cfg with minImpDec := s * fi.cfg.minImpDec } : ForestCfg K).makeDiscrete = fi.cfg.makeDiscrete from rfl, hmake,
      if_neg (by simp)] at this
    rw [← Except.ok.inj this]
    exact d2
  have e1 : f0.cfg = fi.cfg := by rw [st.eq]
  have e1' : f0'.cfg = fi'.cfg := by rw [st'.eq]
  have e2 : f0.classes = fi.classes := by rw [st.eq]
  have e2' : f0'.classes = fi'.classes := by rw [st'.eq]
  have e3 : f0.minmax = if cfg.precompMinmax then some (colMinMax dat F) else none := by rw [st.eq, hF, a9, a1]
  have e3' : f0'.minmax = if cfg.precompMinmax then some (colMinMax dat' F) else none := by rw [st'.eq, hF', b9, b1]; rfl
  have e4 : f0.trees = [] := by rw [st.eq]
  have e4' : f0'.trees = [] := by rw [st'.eq]
  have g1 : fi.cfg.isCls = cfg.isCls := by rw [a1]
  have g2 : fi.cfg.boosting = cfg.boosting := by rw [a1]
  have gi : fi'.cfg.isCls = cfg.isCls := by rw [b1]; rfl
  have gb : fi'.cfg.boosting = cfg.boosting := by rw [b1]; rfl
  have hclasses : fi'.classes = fi.classes.map (fun c => (ψ c.1, c.2)) := by
    rw [d1, c1]
    show (if cfg.isCls then _ else _) = _
    cases hc : cfg.isCls with
    | false => rfl
    | true =>
      rw [if_pos rfl, if_pos rfl, npUnique_recode (hcls hc).1 hrun.labels, classToIdx_map]
  have hpos : 0 < s := by
    cases hc : cfg.isCls with
    | true => rw [(hl.cls hc).2.2]; exact one_pos
    | false =>
      obtain ⟨a, b, ha, -, -, rfl⟩ := hl.reg hc
      exact lt_of_le_of_ne (sq_nonneg a) (Ne.symm (pow_ne_zero 2 ha))
  have hR : ForestRecode mem mem' f0.cfg f0.classes f0.minmax dat dat' φ ψ ψ1 s := by
    rw [e1, e2]
    exact {
      len := hlen
      mono := hmono
      inj := by
        cases hc : cfg.isCls with
        | true => exact (hl.cls hc).1
        | false =>
          obtain ⟨a, b, ha, h1, -, -⟩ := hl.reg hc
          intro x y hxy
          rw [h1, h1] at hxy
          exact mul_left_cancel₀ ha (add_right_cancel hxy)
      inj1 := by
        cases hc : cfg.isCls with
        | true =>
          intro x y hxy
          rwa [(hl.cls hc).2.1, (hl.cls hc).2.1] at hxy
        | false =>
          obtain ⟨a, b, ha, -, h1, -⟩ := hl.reg hc
          intro x y hxy
          rw [h1, h1] at hxy
          exact mul_left_cancel₀ ha hxy
      pos := hpos
      imp := by
        intro ys
        rw [g1]
        cases hc : cfg.isCls with
        | true =>
          rw [(hl.cls hc).2.2, one_mul]
          exact critImp_inj (Or.inl rfl) (hl.cls hc).1 ys
        | false =>
          obtain ⟨a, b, -, h1, -, rfl⟩ := hl.reg hc
          rw [show ψ = fun y => a * y + b from funext h1]
          exact variance_affine a b ys
      imp1 := by
        intro ys
        rw [g1]
        cases hc : cfg.isCls with
        | true =>
          rw [(hl.cls hc).2.2, one_mul, show ψ1 = id from funext (hl.cls hc).2.1, List.map_id]
        | false =>
          obtain ⟨a, b, -, -, h1, rfl⟩ := hl.reg hc
          rw [show ψ1 = fun y => a * y + 0 from funext (fun y => by rw [h1, add_zero])]
          exact variance_affine a 0 ys
      mean := by
        intro hc ys hys
        obtain ⟨a, b, -, h1, -, -⟩ := hl.reg (g1 ▸ hc)
        rw [show ψ = fun y => a * y + b from funext h1]
        exact npMean_affine a b hys
      mean1 := by
        intro hc ys hys
        obtain ⟨a, b, -, -, h1, -⟩ := hl.reg (g1 ▸ hc)
        rw [show ψ1 = fun y => a * y + 0 from funext (fun y => by rw [h1, add_zero])]
        exact npMean_affine a 0 hys
      grid := by rw [a1]; exact hgrid
      classesOK := by
        intro hc
        exact (C51_default_classes R w wi cfg (g1 ▸ hc) _ r budget fi hi).1
      boost := by
        intro hb
        have hc : cfg.isCls = false := c4 (g2 ▸ hb)
        obtain ⟨a, b, -, h1, h2, -⟩ := hl.reg hc
        refine ⟨g1 ▸ hc, by rw [c1, hc]; rfl, fun y p => ?_, fun c y p => ?_⟩
        · rw [h1, h1, h2]; ring
        · rw [h2, h2, h2]; ring
      solver := by rw [a1]; exact hex
      bins := by rw [a1]; exact hbins
      minmax_le := by
        intro mins maxs hm j lo hi h1 h2
        rw [e3] at hm
        split_ifs at hm
        exact (colMinMax_le hne (Option.some.inj hm) j h1 h2).1 }
  have hlab : ∀ arr arr' : List K, arr.length = dat.length → arr'.length = dat'.length →
      (((cfg.boosting = false ∨ ∀ y, ψ y = ψ1 y) ∧ dat'.zip arr' = (dat.zip arr).map (recodeSample φ ψ)) ∨
        (cfg.bootstrap = false ∧ ¬ (cfg.alphaN < 1 ∨ cfg.alphaF < 1) ∧ (dat'.zip arr').Perm ((dat.zip arr).map (recodeSample φ ψ)) ∧
          (cfg.solver ≠ .exact → dat'.zip arr' = (dat.zip arr).map (recodeSample φ ψ)))) →
      LabRel fi.cfg φ ψ ψ1 dat dat' arr arr' := by
    intro arr arr' hal hal' h
    unfold LabRel
    have z' := zip_eq_range dat' arr' hal'.symm
    have z := zip_eq_range dat arr hal.symm
    rw [hlen] at z'
    rcases h with ⟨hb, h⟩ | ⟨hb, ha, h⟩
    · refine Or.inl ⟨by rw [g2]; exact hb, fun i hi => ?_⟩
      rw [← z, ← z', List.map_map] at h
      exact List.map_inj_left.1 h i (List.mem_range.2 hi)
    · refine Or.inr ⟨by rw [a1]; exact hb, by rw [a1]; exact ha, ?_⟩
      rw [z, z', a1]
      exact h
  have hS : ForestSim dat dat' φ ψ ψ1 s f0 f0' w0 w0' := {
    cfg := by rw [e1, e1', hcfg]
    classes := by rw [e2, e2', hclasses]
    disc := hdc
    disc' := hdc'
    minmax := by
      rw [e3, e3']
      split_ifs
      · rw [colMinMax_recode hmono hne hrect hrun.data]
        rfl
      · rfl
    remaining := by rw [st.eq, st'.eq]; show fi'.remaining = fi.remaining; rw [a2, b2]
    rng := by rw [st.eq, st'.eq]; show fi'.rng = fi.rng; rw [c3, d3]; rfl
    queries := by rw [st.eq, st'.eq]; show fi'.numQueries = fi.numQueries; rw [a3, b3]
    glob := by rw [st.glob, st'.glob, a10, b10]; rfl
    len := by rw [e4, e4']
    alike := by
      intro j t t' ht
      rw [e4] at ht
      cases ht
    labels := by
      intro ref ref' h1 h1'
      have hpsi : psiAt f0.cfg.boosting ψ ψ1 f0.trees.length = ψ := by
        unfold psiAt
        rw [e4, if_neg (fun q => q.2 rfl)]
      rw [hpsi, e1]
      unfold Forest.labelRef at h1 h1'
      rw [e1] at h1
      rw [e1'] at h1'
      cases hc : cfg.isCls with
      | false =>
        obtain ⟨k1, k2, rfl⟩ := st.reg (g1 ▸ hc)
        obtain ⟨k1', k2', rfl⟩ := st'.reg (gi ▸ hc)
        have hr1 : ref = r := by
          rw [k1, k2, a6, a7] at h1
          have : (if fi.cfg.boosting = true then (some r : Option Nat) else some r) = some ref := h1
          rw [ite_self] at this
          exact (Option.some.inj this).symm
        have hr1' : ref' = r' := by
          rw [k1', k2', b6, b7] at h1'
          have : (if fi'.cfg.boosting = true then (some r' : Option Nat) else some r') = some ref' := h1'
          rw [ite_self] at this
          exact (Option.some.inj this).symm
        subst hr1 hr1'
        rw [a10, b10]
        exact hlab _ _ hrun.lens.symm hrun.lens'.symm hrun.samples
      | true =>
        have hbo : cfg.boosting = false := by
          cases hb : cfg.boosting with
          | false => rfl
          | true => rw [c4 hb] at hc; cases hc
        obtain ⟨x, y, k1, k2, k3, k4, k5⟩ := st.cls (g1 ▸ hc)
        obtain ⟨x', y', k1', k2', k3', k4', k5'⟩ := st'.cls (gi ▸ hc)
        rw [a6] at k1
        rw [b6] at k1'
        cases k1
        cases k1'
        rw [g2, hbo, if_neg (by simp), k3] at h1
        rw [gb, hbo, if_neg (by simp), k3'] at h1'
        cases h1
        cases h1'
        have q1 : w0.arrays.getD wi.arrays.length [] = (w.arrays.getD r []).map truncInt := by
          rw [k5, List.getD_eq_getElem?_getD, List.getElem?_append_right (le_refl _), Nat.sub_self, a10]
          rfl
        have q1' : w0'.arrays.getD wi'.arrays.length [] = (w'.arrays.getD r' []).map truncInt := by
          rw [k5', List.getD_eq_getElem?_getD, List.getElem?_append_right (le_refl _), Nat.sub_self, b10]
          rfl
        rw [q1, q1']
        have hz : ∀ (d : List (List K)) (l : List K), d.zip (l.map truncInt) = (d.zip l).map (fun p => (p.1, truncInt p.2)) := by
          intro d l
          rw [List.zip_map_right]
          rfl
        have hcomm : ((dat.zip (w.arrays.getD r [])).map (recodeSample φ ψ)).map (fun p => (p.1, truncInt p.2)) =
            ((dat.zip (w.arrays.getD r [])).map (fun p => (p.1, truncInt p.2))).map (recodeSample φ ψ) := by
          rw [List.map_map, List.map_map]
          refine List.map_congr_left (fun p hp => ?_)
          simp only [Function.comp, recodeSample]
          rw [(hcls hc).2 p.2 (List.of_mem_zip hp).2]
        refine hlab _ _ (by rw [List.length_map, hrun.lens]) (by rw [List.length_map, hrun.lens']) ?_
        rw [hz, hz]
        rcases hrun.samples with ⟨hb, h⟩ | ⟨hb, ha, h, h'⟩
        · refine Or.inl ⟨hb, ?_⟩
          rw [h, hcomm]
        · refine Or.inr ⟨hb, ha, ?_, fun q => ?_⟩
          · rw [← hcomm]
            exact h.map _
          · rw [h' q, hcomm] }
  have hn : fi'.cfg.nEstimators = fi.cfg.nEstimators := by rw [hcfg]
  rw [hF, List.range_eq_range'] at hloop
  rw [hF', hn, List.range_eq_range'] at hloop'
  obtain ⟨hsim, hc1, hc2, hc3⟩ := forestLoop_recode hne _ hR hS (by rw [e4]; rfl) hloop hloop'
  refine ⟨fun x => ?_, hsim.len, hsim.queries⟩
  rw [Forest_predict_fst, Forest_predict_fst, mapM_recode (fun j => psiAt f.cfg.boosting ψ ψ1 j) hsim.len
    (fun j t t' ht ht' => hsim.alike j t t' ht ht' x)]
  cases f.trees.mapM (fun (t : Tree K G) => (t.predict x).map Prod.fst) with
  | error e => rfl
  | ok ps =>
    show forestAnswer f'.cfg f'.classes _ = (forestAnswer f.cfg f.classes ps).map _
    have hcf : f.cfg = fi.cfg := hc1.trans e1
    refine forestAnswer_recode (by rw [hcf, g1]; exact hl) (fun hb => ?_) hsim.cfg hsim.classes ps
    rw [hcf, g1]
    exact c4 (by rw [← g2, ← hcf]; exact hb)

end FF
