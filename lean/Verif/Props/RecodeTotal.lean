import Verif.Props.Recode
import Verif.Props.ForestTotal
import Verif.Props.Prefix

set_option linter.unusedSectionVars false

/-!
# Properties C95–C97, C103 and C104 again: both runs succeed

The theorems in `Props/Recode.lean` and `Props/Prefix.lean` compare two runs that return. Here the training set and the settings of the
first run are well formed in the sense of C44 and C85, and it is part of the conclusion that both runs return.
-/

namespace FF

open Spec

variable {K : Type} [Field K] [LinearOrder K] [IsStrictOrderedRing K] [FloorRing K] [NpFun K] {G : Type}

/-! ### Specification -/

/-- A forest that can be built from these data and labels, and fitted (C85). -/
structure ForestReady (cfg : ForestCfg K) (data : List (List K)) (labels : List K) : Prop where
  boost : cfg.boosting = true → cfg.boostingLr ≠ none ∧ cfg.isCls = false
  oob : cfg.oobScore = true → cfg.bootstrap = true
  whole : cfg.isCls = true → ∀ y ∈ labels, ∃ n : Int, y = n
  ok : ForestDataOK cfg data labels
  solvable : ForestSolvable cfg data labels

/-- A tree that can be built and fitted with one candidate per value (C44). -/
structure TreeReady (A : TreeArgs K) : Prop where
  args : ArgsOK A
  train : TrainOK A
  exact : A.cfg.solver = .exact
  identity : A.cfg.binType = some .identity
  entropy : A.cfg.criterion = .entropy → A.labels.dedup.length ≤ 2

/-! ### Runs of ready forests and trees return -/

theorem ForestReady.run {cfg : ForestCfg K} {data : List (List K)} {w : World K G} {r : Nat}
    (h : ForestReady cfg data (w.arrays.getD r [])) (R : Rng K G) (mem : Nat → Nat → Junk K) (budget : Option Int) :
    ∃ f w1, runForest R mem w cfg data r budget = .ok (f, w1) := by
  obtain ⟨f, w1, f', w', h1, h2⟩ := C85_constructed R mem cfg budget w data r h.boost h.oob h.whole h.ok h.solvable
  refine ⟨f', w', ?_⟩
  unfold runForest
  rw [h1]
  exact h2

theorem TreeReady.run {A : TreeArgs K} (h : TreeReady A) (R : Rng K G) (mem : Nat → Junk K) (glob : Glob G) :
    ∃ t, runTree R mem A glob = .ok t := by
  obtain ⟨t0, ⟨g0, hc⟩, hf⟩ := C44_exact_identity_partial R A h.args h.train h.exact h.identity h.entropy
  obtain ⟨t, g, ht⟩ := hf mem glob
  refine ⟨t, ?_⟩
  unfold runTree
  rw [hc]
  simp only [Bind.bind, Except.bind]
  rw [ht]

/-! ### Ready stays ready -/

/-- Rows that can get different labels differ, in terms of the samples. -/
theorem differ_zip (data : List (List K)) (labels : List K) (hlen : data.length = labels.length) :
    (∀ i j, i < data.length → j < data.length → labels.getD i 0 ≠ labels.getD j 0 → data.getD i [] ≠ data.getD j []) ↔
      ∀ p ∈ data.zip labels, ∀ q ∈ data.zip labels, p.2 ≠ q.2 → p.1 ≠ q.1 := by
  constructor
  · intro h p hp q hq
    obtain ⟨i, hi, rfl⟩ := List.getElem_of_mem hp
    obtain ⟨j, hj, rfl⟩ := List.getElem_of_mem hq
    have hi' : i < data.length ∧ i < labels.length := by simpa using hi
    have hj' : j < data.length ∧ j < labels.length := by simpa using hj
    have := h i j hi'.1 hj'.1
    rw [List.getD_eq_getElem _ _ hi'.1, List.getD_eq_getElem _ _ hj'.1, List.getD_eq_getElem _ _ hi'.2,
      List.getD_eq_getElem _ _ hj'.2] at this
    simpa using this
  · intro h i j hi hj
    have hi' : i < labels.length := hlen ▸ hi
    have hj' : j < labels.length := hlen ▸ hj
    rw [List.getD_eq_getElem _ _ hi, List.getD_eq_getElem _ _ hj, List.getD_eq_getElem _ _ hi', List.getD_eq_getElem _ _ hj']
    have hz : ∀ k (hk : k < data.length), (data[k], labels[k]'(hlen ▸ hk)) ∈ data.zip labels := by
      intro k hk
      have hk' : k < (data.zip labels).length := by simp [← hlen, hk]
      have := List.getElem_mem hk'
      rwa [List.getElem_zip] at this
    exact h _ (hz i hi) _ (hz j hj)

theorem width_of_mem {data : List (List K)} (hrect : ∀ row ∈ data, row.length = (data.getD 0 []).length) {data' : List (List K)}
    (hne : data' ≠ []) (hsub : ∀ row ∈ data', row ∈ data) : (data'.getD 0 []).length = (data.getD 0 []).length := by
  cases data' with
  | nil => exact absurd rfl hne
  | cons a as => exact hrect _ (hsub a (by simp))

/-- `LinearOK` for the same samples in another order. -/
theorem LinearOK.perm {cfg : ForestCfg K} {data data' : List (List K)} {labels labels' : List K} (h : LinearOK cfg data labels)
    (hlen : data.length = labels.length) (hlen' : data'.length = labels'.length) (hd : data'.Perm data)
    (hw : (data'.getD 0 []).length = (data.getD 0 []).length) (hperm : (data'.zip labels').Perm (data.zip labels)) :
    LinearOK cfg data' labels' := by
  rcases h with ⟨h1, h2⟩ | ⟨h1, h2, h3, h4⟩
  · refine Or.inl ⟨h1, fun j hj => ?_⟩
    obtain ⟨r, hr, s, hs, hrs⟩ := h2 j (hw ▸ hj)
    exact ⟨r, hd.mem_iff.2 hr, s, hd.mem_iff.2 hs, hrs⟩
  · refine Or.inr ⟨h1, h2, h3, ?_⟩
    rcases h4 with h4 | ⟨h4, h5⟩
    · exact Or.inl (hd.nodup_iff.2 h4)
    · refine Or.inr ⟨h4, ?_⟩
      rw [differ_zip _ _ hlen] at h5
      rw [differ_zip _ _ hlen']
      exact fun p hp q hq => h5 p (hperm.mem_iff.1 hp) q (hperm.mem_iff.1 hq)

theorem ForestSolvable.of_linear {cfg : ForestCfg K} {data data' : List (List K)} {labels labels' : List K}
    (h : ForestSolvable cfg data labels) (hl : LinearOK cfg data labels → LinearOK cfg data' labels') :
    ForestSolvable cfg data' labels' := by
  unfold ForestSolvable at h ⊢
  cases hs : cfg.solver <;> cases hb : cfg.binType with
  | none => rw [hs, hb] at h; exact h
  | some b =>
    rw [hs, hb] at h
    cases b <;> first | exact h | exact ⟨h.1, hl h.2⟩ | exact ⟨h.1, h.2.1, h.2.2.1, hl h.2.2.2⟩

theorem ForestReady.perm {cfg : ForestCfg K} {data data' : List (List K)} {labels labels' : List K} (h : ForestReady cfg data labels)
    (hlen' : data'.length = labels'.length) (hperm : (data'.zip labels').Perm (data.zip labels)) : ForestReady cfg data' labels' := by
  have hlen := h.ok.lens
  have hd : data'.Perm data := by
    have := hperm.map Prod.fst
    rwa [List.map_fst_zip hlen'.le, List.map_fst_zip hlen.le] at this
  have hl : labels'.Perm labels := by
    have := hperm.map Prod.snd
    rwa [List.map_snd_zip hlen'.ge, List.map_snd_zip hlen.ge] at this
  have hne : data' ≠ [] := fun q => h.ok.data_ne (by rw [q] at hd; exact hd.symm.eq_nil)
  have hw := width_of_mem h.ok.rect hne (fun row hr => hd.mem_iff.1 hr)
  exact {
    boost := h.boost
    oob := h.oob
    whole := fun q y hy => h.whole q y (hl.mem_iff.1 hy)
    ok := {
      data_ne := hne
      rect := fun row hr => by rw [hw]; exact h.ok.rect row (hd.mem_iff.1 hr)
      lens := hlen'
      depth := h.ok.depth
      leaves := h.ok.leaves
      alphaN := by rw [hd.length_eq]; exact h.ok.alphaN
      alphaF := by rw [hw]; exact h.ok.alphaF
      featSub := by rw [hw]; exact h.ok.featSub }
    solvable := h.solvable.of_linear (fun q => q.perm hlen hlen' hd hw hperm) }

theorem mapColumns_width (φ : Nat → K → K) (data : List (List K)) :
    ((mapColumns φ data).getD 0 []).length = (data.getD 0 []).length := by
  unfold mapColumns
  cases data with
  | nil => rfl
  | cons row rows => exact recodeRow_length φ row

theorem mapIdx_injective {φ : Nat → K → K} (hφ : ∀ f, StrictMono (φ f)) : Function.Injective (fun row : List K => row.mapIdx φ) := by
  intro a b hab
  apply List.ext_getElem?
  intro j
  have := congrArg (fun l : List K => l[j]?) hab
  simp only [List.getElem?_mapIdx] at this
  exact Option.map_injective (hφ j).injective this

theorem ForestReady.columns {cfg : ForestCfg K} {data : List (List K)} {labels : List K} (h : ForestReady cfg data labels)
    {φ : Nat → K → K} (hφ : ∀ f, StrictMono (φ f)) : ForestReady cfg (mapColumns φ data) labels := by
  have hw := mapColumns_width φ data
  have hn : (mapColumns φ data).length = data.length := List.length_map _
  exact {
    boost := h.boost
    oob := h.oob
    whole := h.whole
    ok := {
      data_ne := fun q => h.ok.data_ne (by rw [← List.length_eq_zero_iff, ← hn, q]; rfl)
      rect := fun row hr => by
        rw [hw]
        obtain ⟨r, hr', rfl⟩ := List.mem_map.1 hr
        rw [List.length_mapIdx]
        exact h.ok.rect r hr'
      lens := by rw [hn]; exact h.ok.lens
      depth := h.ok.depth
      leaves := h.ok.leaves
      alphaN := by rw [hn]; exact h.ok.alphaN
      alphaF := by rw [hw]; exact h.ok.alphaF
      featSub := by rw [hw]; exact h.ok.featSub }
    solvable := h.solvable.of_linear (fun q => by
      rcases q with ⟨h1, h2⟩ | ⟨h1, h2, h3, h4⟩
      · refine Or.inl ⟨h1, fun j hj => ?_⟩
        rw [hw] at hj
        obtain ⟨r, hr, s, hs, hrs⟩ := h2 j hj
        refine ⟨r.mapIdx φ, List.mem_map_of_mem hr, s.mapIdx φ, List.mem_map_of_mem hs, ?_⟩
        have e : ∀ row ∈ data, (row.mapIdx φ).getD j 0 = φ j (row.getD j 0) := fun row hrow =>
          recodeRow_getD φ (by rw [h.ok.rect row hrow]; exact hj)
        rw [e r hr, e s hs]
        exact fun q => hrs ((hφ j).injective q)
      · refine Or.inr ⟨h1, h2, h3, ?_⟩
        rcases h4 with h4 | ⟨h4, h5⟩
        · exact Or.inl (h4.map (mapIdx_injective hφ))
        · refine Or.inr ⟨h4, fun i j hi hj hij => ?_⟩
          rw [hn] at hi hj
          have e : ∀ k < data.length, (mapColumns φ data).getD k [] = (data.getD k []).mapIdx φ := by
            intro k hk
            unfold mapColumns
            rw [List.getD_eq_getElem _ _ (by rw [List.length_map]; exact hk), List.getElem_map, List.getD_eq_getElem _ _ hk]
          rw [e i hi, e j hj]
          exact fun q => h5 i j hi hj hij (mapIdx_injective hφ q)) }

/-- New labels, equal only where the old ones were, and another least decrease. -/
theorem ForestReady.labels {cfg : ForestCfg K} {data : List (List K)} {labels : List K} (h : ForestReady cfg data labels) (ψ : K → K)
    (m : K) (hint : cfg.isCls = true → ∀ y ∈ labels, ∃ n : Int, ψ y = n) :
    ForestReady { cfg with minImpDec := m } data (labels.map ψ) := by
  have hs : ForestSolvable cfg data (labels.map ψ) := h.solvable.of_linear (fun q => by
    rcases q with q | ⟨h1, h2, h3, h4⟩
    · exact Or.inl q
    · refine Or.inr ⟨h1, h2, h3, h4.imp_right fun ⟨h4, h5⟩ => ⟨h4, fun i j hi hj hij => h5 i j hi hj ?_⟩⟩
      have e : ∀ k < data.length, (labels.map ψ).getD k 0 = ψ (labels.getD k 0) := by
        intro k hk
        have hk' : k < labels.length := h.ok.lens ▸ hk
        rw [List.getD_eq_getElem _ _ (by rw [List.length_map]; exact hk'), List.getElem_map, List.getD_eq_getElem _ _ hk']
      rw [e i hi, e j hj] at hij
      exact fun q => hij (by rw [q]))
  exact {
    boost := h.boost
    oob := h.oob
    whole := fun q y hy => by
      obtain ⟨x, hx, rfl⟩ := List.mem_map.1 hy
      exact hint q x hx
    ok := {
      data_ne := h.ok.data_ne
      rect := h.ok.rect
      lens := by rw [List.length_map]; exact h.ok.lens
      depth := h.ok.depth
      leaves := h.ok.leaves
      alphaN := h.ok.alphaN
      alphaF := h.ok.alphaF
      featSub := h.ok.featSub }
    solvable := hs }

/-! ### Forests -/

section
variable (R : Rng K G) (mem mem' : Nat → Nat → Junk K) (w w' : World K G) (cfg : ForestCfg K) (data data' : List (List K)) (r r' : Nat)
  (budget : Option Int)

theorem ForestReady.rect {cfg : ForestCfg K} {data : List (List K)} {labels : List K} (h : ForestReady cfg data labels) :
    ∀ row ∈ data, row.length = (data.getD 0 []).length := h.ok.rect

theorem ForestReady.noDiscrete {cfg : ForestCfg K} {data : List (List K)} {labels : List K} (h : ForestReady cfg data labels)
    (hb : cfg.binType = some .random → cfg.makeDiscrete = false) : NoDiscrete cfg.binType cfg.makeDiscrete := by
  have hs := h.solvable
  unfold ForestSolvable at hs
  unfold NoDiscrete
  cases hbt : cfg.binType with
  | none => rw [hbt] at hs; cases hsol : cfg.solver <;> rw [hsol] at hs <;> exact hs.elim
  | some b =>
    cases b with
    | linear => exact Or.inr (Or.inl rfl)
    | identity => exact Or.inr (Or.inr rfl)
    | random => exact Or.inl (hb hbt)
    | discrete => rw [hbt] at hs; cases hsol : cfg.solver <;> rw [hsol] at hs <;> exact hs.elim

/-- C95, forests: on well-formed data both runs return, and they agree. -/
theorem C95_forest_both (hready : ForestReady cfg data (w.arrays.getD r [])) (hex : cfg.solver = .exact) (hboot : cfg.bootstrap = false)
    (hN : cfg.alphaN = 1) (hF : cfg.alphaF = 1) (hb : cfg.binType = some .random → cfg.makeDiscrete = false)
    (hbins : cfg.useLog = false → cfg.numBins ≠ some 1) (hlen' : data'.length = (w'.arrays.getD r' []).length)
    (hperm : (data'.zip (w'.arrays.getD r' [])).Perm (data.zip (w.arrays.getD r []))) :
    ∃ (f f' : Forest K G) (w1 w1' : World K G), runForest R mem w cfg data r budget = .ok (f, w1) ∧
      runForest R mem' w' cfg data' r' budget = .ok (f', w1') ∧ f'.trees.length = f.trees.length ∧ f'.numQueries = f.numQueries ∧
      ∀ x, (f'.predict x).map Prod.fst = (f.predict x).map Prod.fst := by
  obtain ⟨f, w1, h⟩ := hready.run R mem budget
  obtain ⟨f', w1', h'⟩ := (hready.perm hlen' hperm).run (w := w') R mem' budget
  exact ⟨f, f', w1, w1', h, h', C95_forest_row_order R mem mem' w w' cfg data data' r r' budget hex hboot (by rw [hN]; exact lt_irrefl _)
    (by rw [hF]; exact lt_irrefl _) (hready.noDiscrete hb) hbins _ hready.rect hready.ok.lens hlen' hperm f f' w1 w1' h h'⟩

/-- C96, forests: on well-formed data both runs return, and they agree. -/
theorem C96_forest_both (hready : ForestReady cfg data (w.arrays.getD r [])) (hsolver : cfg.solver = .exact ∨ mem' = mem)
    (hbins : cfg.useLog = false → cfg.numBins ≠ some 1) (φ : Nat → K → K) (hmono : ∀ f, StrictMono (φ f))
    (hscale : ScalesOK cfg.binType φ) (hlabels : w'.arrays.getD r' [] = w.arrays.getD r []) :
    ∃ (f f' : Forest K G) (w1 w1' : World K G), runForest R mem w cfg data r budget = .ok (f, w1) ∧
      runForest R mem' w' cfg (mapColumns φ data) r' budget = .ok (f', w1') ∧ f'.trees.length = f.trees.length ∧
      f'.numQueries = f.numQueries ∧ ∀ x, (f'.predict (x.mapIdx φ)).map Prod.fst = (f.predict x).map Prod.fst := by
  obtain ⟨f, w1, h⟩ := hready.run R mem budget
  obtain ⟨f', w1', h'⟩ := (hlabels ▸ hready.columns hmono : ForestReady cfg (mapColumns φ data) (w'.arrays.getD r' [])).run (w := w') R mem' budget
  exact ⟨f, f', w1, w1', h, h', C96_forest_units R mem mem' w w' cfg data r r' budget hsolver hbins _ hready.rect
    hready.ok.lens φ hmono hscale hlabels f f' w1 w1' h h'⟩

/-- C97, regression forests: on well-formed data both runs return, and they agree. -/
theorem C97_forest_targets_both (hready : ForestReady cfg data (w.arrays.getD r [])) (hreg : cfg.isCls = false)
    (hb : cfg.binType = some .random → cfg.makeDiscrete = false) (hbins : cfg.useLog = false → cfg.numBins ≠ some 1) (a b : K) (ha : a ≠ 0)
    (hmode : cfg.boosting = false ∨ b = 0 ∨ (cfg.bootstrap = false ∧ cfg.alphaN = 1 ∧ cfg.alphaF = 1))
    (hsolver : cfg.solver = .exact ∨ (a ^ 2 = 1 ∧ mem' = mem))
    (hlabels : w'.arrays.getD r' [] = (w.arrays.getD r []).map (fun y => a * y + b)) :
    ∃ (f f' : Forest K G) (w1 w1' : World K G), runForest R mem w cfg data r budget = .ok (f, w1) ∧
      runForest R mem' w' { cfg with minImpDec := a ^ 2 * cfg.minImpDec } data r' budget = .ok (f', w1') ∧
      f'.trees.length = f.trees.length ∧ f'.numQueries = f.numQueries ∧
      ∀ x, (f'.predict x).map Prod.fst = ((f.predict x).map Prod.fst).map (mapAnswer (fun y => a * y + b)) := by
  obtain ⟨f, w1, h⟩ := hready.run R mem budget
  have hr' := hready.labels (fun y => a * y + b) (a ^ 2 * cfg.minImpDec) (fun q => by rw [hreg] at q; cases q)
  rw [← hlabels] at hr'
  obtain ⟨f', w1', h'⟩ := hr'.run R mem' budget
  exact ⟨f, f', w1, w1', h, h', C97_forest_targets R mem mem' w w' cfg data r r' budget hreg (hready.noDiscrete hb) hbins _
    hready.rect hready.ok.lens a b ha
    (hmode.imp_right fun q => q.imp_right fun q => ⟨q.1, by rw [q.2.1]; exact lt_irrefl _, by rw [q.2.2]; exact lt_irrefl _⟩) hsolver hlabels f f' w1 w1' h h'⟩

/-- C97, classification forests: on well-formed data both runs return, and they agree. -/
theorem C97_forest_classes_both (hready : ForestReady cfg data (w.arrays.getD r [])) (hsolver : cfg.solver = .exact ∨ mem' = mem)
    (hcls : cfg.isCls = true) (hb : cfg.binType = some .random → cfg.makeDiscrete = false)
    (hbins : cfg.useLog = false → cfg.numBins ≠ some 1) (ψ : K → K) (hψ : StrictMono ψ)
    (hint : ∀ y ∈ w.arrays.getD r [], ∃ n : Int, ψ y = n)
    (hlabels : w'.arrays.getD r' [] = (w.arrays.getD r []).map ψ) :
    ∃ (f f' : Forest K G) (w1 w1' : World K G), runForest R mem w cfg data r budget = .ok (f, w1) ∧
      runForest R mem' w' cfg data r' budget = .ok (f', w1') ∧ f'.trees.length = f.trees.length ∧ f'.numQueries = f.numQueries ∧
      ∀ x, (f'.predict x).map Prod.fst = ((f.predict x).map Prod.fst).map (mapAnswer ψ) := by
  obtain ⟨f, w1, h⟩ := hready.run R mem budget
  have hr' : ForestReady cfg data ((w.arrays.getD r []).map ψ) := hready.labels ψ cfg.minImpDec (fun _ => hint)
  rw [← hlabels] at hr'
  obtain ⟨f', w1', h'⟩ := hr'.run R mem' budget
  exact ⟨f, f', w1, w1', h, h', C97_forest_classes R mem mem' w w' cfg data r r' budget hsolver hcls (hready.noDiscrete hb) hbins _
    hready.rect hready.ok.lens ψ hψ (fun y hy => ⟨hready.whole hcls y hy, hint y hy⟩) hlabels f f' w1 w1' h h'⟩

end

/-! ### Trees -/

section
variable (R : Rng K G) (mem mem' : Nat → Junk K) (A : TreeArgs K)

theorem dedup_length_perm {l l' : List K} (h : l'.Perm l) : l'.dedup.length = l.dedup.length := by
  rw [← List.card_toFinset, ← List.card_toFinset, List.toFinset_eq_of_perm _ _ h]

theorem dedup_length_map_le (ψ : K → K) (l : List K) : (l.map ψ).dedup.length ≤ l.dedup.length := by
  rw [← List.card_toFinset, ← List.card_toFinset]
  have : (l.map ψ).toFinset = l.toFinset.image ψ := by
    ext y
    simp
  rw [this]
  exact Finset.card_image_le

/-- C95, trees: on a well-formed training set both runs return, and they agree. -/
theorem C95_tree_both (hready : TreeReady A) (hall : A.idcs = none) (data' : List (List K)) (labels' : List K)
    (hlen' : data'.length = labels'.length) (hperm : (data'.zip labels').Perm (A.data.zip A.labels)) (glob : Glob G) :
    ∃ t t', runTree R mem A glob = .ok t ∧ runTree R mem' { A with data := data', labels := labels' } glob = .ok t' ∧
      SameShape (fun _ x => x) t t' ∧ t'.numQueries = t.numQueries ∧
      ∀ x, (t'.predict x).map Prod.fst = (t.predict x).map Prod.fst := by
  have hT := hready.train
  have hlen := hT.lens
  have hd : data'.Perm A.data := by
    have := hperm.map Prod.fst
    rwa [List.map_fst_zip hlen'.le, List.map_fst_zip hlen.le] at this
  have hl : labels'.Perm A.labels := by
    have := hperm.map Prod.snd
    rwa [List.map_snd_zip hlen'.ge, List.map_snd_zip hlen.ge] at this
  have hne : data' ≠ [] := fun q => hT.data_ne (by rw [q] at hd; exact hd.symm.eq_nil)
  have hw := width_of_mem hT.rect hne (fun row hr => hd.mem_iff.1 hr)
  have hcols : TreeArgs.cols { A with data := data', labels := labels' } = A.cols := by
    show A.feats.getD (List.range (data'.getD 0 []).length) = A.feats.getD (List.range (A.data.getD 0 []).length)
    rw [hw]
  have hready' : TreeReady { A with data := data', labels := labels' } := {
    args := ⟨hready.args.crit, hready.args.minmax_le, hready.args.sorted, hready.args.linear_bins, hready.args.auto_bins⟩
    train := {
      data_ne := hne
      rect := fun row hr => (hT.rect row (hd.mem_iff.1 hr)).trans hw.symm
      lens := hlen'
      rows := fun i hi => by
        have hr : TreeArgs.rows { A with data := data', labels := labels' } = List.range labels'.length := by
          show A.idcs.getD _ = _
          rw [hall]
          rfl
        rw [hr] at hi
        show i < data'.length
        rw [hlen']
        exact List.mem_range.1 hi
      cols := fun j hj => by
        rw [hcols] at hj
        exact lt_of_lt_of_eq (hT.cols j hj) hw.symm
      cols_ne := by rw [hcols]; exact hT.cols_ne
      classes := fun q => ⟨(hT.classes q).1, fun y hy => (hT.classes q).2 y (hl.mem_iff.1 hy)⟩
      depth := hT.depth
      leaves := hT.leaves
      featSub := by rw [hcols]; exact hT.featSub
      minmax := fun mins maxs q => by
        have := hT.minmax mins maxs q
        exact ⟨this.1.trans hw.symm, this.2.trans hw.symm⟩
      splitter := hT.splitter }
    exact := hready.exact
    identity := hready.identity
    entropy := fun q => by
      show labels'.dedup.length ≤ 2
      rw [dedup_length_perm hl]
      exact hready.entropy q }
  obtain ⟨t, h⟩ := hready.run R mem glob
  obtain ⟨t', h'⟩ := hready'.run R mem' glob
  exact ⟨t, t', h, h', C95_tree_row_order R mem mem' A hready.args hready.exact (Or.inr (Or.inr hready.identity))
    (fun q => (hT.classes q).1) hall _ hT.rect data' labels' hlen hlen' hperm glob t t' h h'⟩

/-- C96, trees: on a well-formed training set both runs return, and they agree. -/
theorem C96_tree_both (hready : TreeReady A) (φ : Nat → K → K) (hmono : ∀ f, StrictMono (φ f)) (glob : Glob G) :
    ∃ t t', runTree R mem A glob = .ok t ∧
      runTree R mem' { A with
        data := mapColumns φ A.data
        cfg := { A.cfg with minmax := A.cfg.minmax.map (fun m => (m.1.mapIdx φ, m.2.mapIdx φ)) } } glob = .ok t' ∧
      SameShape φ t t' ∧ t'.numQueries = t.numQueries ∧
      ∀ x, (t'.predict (x.mapIdx φ)).map Prod.fst = (t.predict x).map Prod.fst := by
  have hT := hready.train
  have hw := mapColumns_width φ A.data
  have hn : (mapColumns φ A.data).length = A.data.length := List.length_map _
  have hcols : TreeArgs.cols { A with
        data := mapColumns φ A.data
        cfg := { A.cfg with minmax := A.cfg.minmax.map (fun m => (m.1.mapIdx φ, m.2.mapIdx φ)) } } = A.cols := by
    show A.feats.getD (List.range ((mapColumns φ A.data).getD 0 []).length) = A.feats.getD (List.range (A.data.getD 0 []).length)
    rw [hw]
  have hready' : TreeReady { A with
        data := mapColumns φ A.data
        cfg := { A.cfg with minmax := A.cfg.minmax.map (fun m => (m.1.mapIdx φ, m.2.mapIdx φ)) } } := {
    args := {
      crit := hready.args.crit
      minmax_le := by
        intro mins maxs hm f lo hi h1 h2
        obtain ⟨m, hm1, hm2⟩ := Option.map_eq_some_iff.1 hm
        cases hm2
        rw [List.getElem?_mapIdx] at h1 h2
        obtain ⟨a, ha, rfl⟩ := Option.map_eq_some_iff.1 h1
        obtain ⟨b, hb, rfl⟩ := Option.map_eq_some_iff.1 h2
        exact (hmono f).monotone (hready.args.minmax_le m.1 m.2 hm1 f a b ha hb)
      sorted := hready.args.sorted
      linear_bins := hready.args.linear_bins
      auto_bins := hready.args.auto_bins }
    train := {
      data_ne := fun q => hT.data_ne (by
        have q' : mapColumns φ A.data = [] := q
        rw [← List.length_eq_zero_iff, ← hn, q']
        rfl)
      rect := fun row hr => by
        refine Eq.trans ?_ hw.symm
        obtain ⟨r, hr', rfl⟩ := List.mem_map.1 hr
        rw [List.length_mapIdx]
        exact hT.rect r hr'
      lens := hn.trans hT.lens
      rows := fun i hi => lt_of_lt_of_eq (hT.rows i hi) hn.symm
      cols := fun j hj => by
        rw [hcols] at hj
        exact lt_of_lt_of_eq (hT.cols j hj) hw.symm
      cols_ne := by rw [hcols]; exact hT.cols_ne
      classes := hT.classes
      depth := hT.depth
      leaves := hT.leaves
      featSub := by rw [hcols]; exact hT.featSub
      minmax := fun mins maxs q => by
        obtain ⟨m, hm1, hm2⟩ := Option.map_eq_some_iff.1 q
        cases hm2
        have := hT.minmax m.1 m.2 hm1
        exact ⟨(List.length_mapIdx.trans this.1).trans hw.symm, (List.length_mapIdx.trans this.2).trans hw.symm⟩
      splitter := hT.splitter }
    exact := hready.exact
    identity := hready.identity
    entropy := hready.entropy }
  obtain ⟨t, h⟩ := hready.run R mem glob
  obtain ⟨t', h'⟩ := hready'.run R mem' glob
  exact ⟨t, t', h, h', C96_tree_units R mem mem' A hready.args (Or.inl hready.exact) (fun q => (hT.classes q).1) hT.rows φ hmono
    (Or.inl hready.identity) glob t t' h h'⟩

/-- C97, regression trees: on a well-formed training set both runs return, and they agree. -/
theorem C97_tree_targets_both (hready : TreeReady A) (hreg : A.cfg.isCls = false) (hcl : A.cfg.classes = []) (a b : K) (ha : a ≠ 0)
    (glob : Glob G) :
    ∃ t t', runTree R mem A glob = .ok t ∧
      runTree R mem' { A with
        labels := A.labels.map (fun y => a * y + b), cfg := { A.cfg with minImpDec := a ^ 2 * A.cfg.minImpDec } } glob = .ok t' ∧
      SameShape (fun _ x => x) t t' ∧ t'.numQueries = t.numQueries ∧
      ∀ x, (t'.predict x).map Prod.fst = ((t.predict x).map Prod.fst).map (mapAnswer (fun y => a * y + b)) := by
  have hT := hready.train
  have hready' : TreeReady { A with
        labels := A.labels.map (fun y => a * y + b), cfg := { A.cfg with minImpDec := a ^ 2 * A.cfg.minImpDec } } := {
    args := ⟨hready.args.crit, hready.args.minmax_le, hready.args.sorted, hready.args.linear_bins, hready.args.auto_bins⟩
    train := {
      data_ne := hT.data_ne
      rect := hT.rect
      lens := hT.lens.trans (List.length_map _).symm
      rows := by rw [rows_labels]; exact hT.rows
      cols := hT.cols
      cols_ne := hT.cols_ne
      classes := fun q => by rw [show A.cfg.isCls = true from q] at hreg; cases hreg
      depth := hT.depth
      leaves := hT.leaves
      featSub := hT.featSub
      minmax := hT.minmax
      splitter := hT.splitter }
    exact := hready.exact
    identity := hready.identity
    entropy := fun q => (dedup_length_map_le _ _).trans (hready.entropy q) }
  obtain ⟨t, h⟩ := hready.run R mem glob
  obtain ⟨t', h'⟩ := hready'.run R mem' glob
  exact ⟨t, t', h, h', C97_tree_targets R mem mem' A hready.args hreg (Or.inr (Or.inr hready.identity))
    (fun i hi => hT.lens ▸ hT.rows i hi) a b ha (Or.inl hready.exact) hcl glob t t' h h'⟩

/-- C97, classification trees: on a well-formed training set both runs return, and they agree. -/
theorem C97_tree_classes_both (hready : TreeReady A) (hcls : A.cfg.isCls = true) (ψ : K → K) (hψ : Function.Injective ψ) (glob : Glob G) :
    ∃ t t', runTree R mem A glob = .ok t ∧
      runTree R mem' { A with
        labels := A.labels.map ψ, cfg := { A.cfg with classes := A.cfg.classes.map (fun c => (ψ c.1, c.2)) } } glob = .ok t' ∧
      SameShape (fun _ x => x) t t' ∧ t'.numQueries = t.numQueries ∧
      ∀ x, (t'.predict x).map Prod.fst = ((t.predict x).map Prod.fst).map (mapAnswer ψ) := by
  have hT := hready.train
  have hc := hT.classes hcls
  have e1 : (A.cfg.classes.map (fun c => (ψ c.1, c.2))).map Prod.fst = (A.cfg.classes.map Prod.fst).map ψ := by
    rw [List.map_map, List.map_map]
    rfl
  have hready' : TreeReady { A with
        labels := A.labels.map ψ, cfg := { A.cfg with classes := A.cfg.classes.map (fun c => (ψ c.1, c.2)) } } := {
    args := ⟨hready.args.crit, hready.args.minmax_le, hready.args.sorted, hready.args.linear_bins, hready.args.auto_bins⟩
    train := {
      data_ne := hT.data_ne
      rect := hT.rect
      lens := hT.lens.trans (List.length_map _).symm
      rows := by rw [rows_labels]; exact hT.rows
      cols := hT.cols
      cols_ne := hT.cols_ne
      classes := fun _ => by
        refine ⟨⟨?_, ?_⟩, fun y hy => ?_⟩
        · show ((A.cfg.classes.map (fun c => (ψ c.1, c.2))).map Prod.fst).Nodup
          rw [e1]
          exact hc.1.1.map hψ
        · show (A.cfg.classes.map (fun c => (ψ c.1, c.2))).map Prod.snd = List.range (A.cfg.classes.map (fun c => (ψ c.1, c.2))).length
          rw [List.map_map, List.length_map]
          exact hc.1.2
        · obtain ⟨x, hx, rfl⟩ := List.mem_map.1 hy
          show ψ x ∈ (A.cfg.classes.map (fun c => (ψ c.1, c.2))).map Prod.fst
          rw [e1]
          exact List.mem_map_of_mem (hc.2 x hx)
      depth := hT.depth
      leaves := hT.leaves
      featSub := hT.featSub
      minmax := hT.minmax
      splitter := hT.splitter }
    exact := hready.exact
    identity := hready.identity
    entropy := fun q => (dedup_length_map_le _ _).trans (hready.entropy q) }
  obtain ⟨t, h⟩ := hready.run R mem glob
  obtain ⟨t', h'⟩ := hready'.run R mem' glob
  exact ⟨t, t', h, h', C97_tree_classes R mem mem' A hready.args hcls hc.1 (Or.inr (Or.inr hready.identity))
    (fun i hi => hT.lens ▸ hT.rows i hi) ψ hψ (Or.inl hready.exact) glob t t' h h'⟩

/-- C103: on a well-formed training set both runs return. -/
theorem C103_both (hready : TreeReady A) (m : Option Nat) (hm : LimitLe A.cfg.maxLeafNodes m) (glob : Glob G) :
    ∃ t t', runTree R mem A glob = .ok t ∧ runTree R mem (A.limited m) glob = .ok t' ∧
      TreeKept t t' ∧ (∀ x leaf leaf', Routes t x 0 leaf → Routes t' x 0 leaf' → Routes t' x leaf leaf') ∧
      t.numQueries ≤ t'.numQueries ∧ (A.cfg.maxLeafNodes ≠ some t.leaves.length → t' = t.limited m) := by
  have hT := hready.train
  have hready' : TreeReady (A.limited m) := {
    args := ⟨hready.args.crit, hready.args.minmax_le, hready.args.sorted, hready.args.linear_bins, hready.args.auto_bins⟩
    train := ⟨hT.data_ne, hT.rect, hT.lens, hT.rows, hT.cols, hT.cols_ne, hT.classes, hT.depth, fun b hb => by
      obtain ⟨a, ha, hab⟩ := hm b hb
      exact (hT.leaves a ha).trans hab, hT.featSub, hT.minmax, hT.splitter⟩
    exact := hready.exact
    identity := hready.identity
    entropy := hready.entropy }
  obtain ⟨t, h⟩ := hready.run R mem glob
  obtain ⟨t', h'⟩ := hready'.run R mem glob
  exact ⟨t, t', h, h', C103_leaf_limit R mem A m hm glob t t' h h'⟩

end

/-- C104: on well-formed data both runs return. -/
theorem C104_both (R : Rng K G) (mem : Nat → Nat → Junk K) (w : World K G) (cfg : ForestCfg K) (data : List (List K)) (r : Nat)
    (hready : ForestReady cfg data (w.arrays.getD r [])) (n : Nat) (hn : cfg.nEstimators ≤ n) (budget : Option Int) :
    ∃ (f f' : Forest K G) (w1 w1' : World K G), runForest R mem w cfg data r budget = .ok (f, w1) ∧
      runForest R mem w { cfg with nEstimators := n } data r budget = .ok (f', w1') ∧
      f.trees <+: f'.trees ∧ (∀ l, f.oobList = some l → ∃ l', f'.oobList = some l' ∧ l <+: l') ∧
      (f.trees.length < cfg.nEstimators → f' = f.sized n ∧ w1' = w1) := by
  have hready' : ForestReady { cfg with nEstimators := n } data (w.arrays.getD r []) := {
    boost := hready.boost
    oob := hready.oob
    whole := hready.whole
    ok := ⟨hready.ok.data_ne, hready.ok.rect, hready.ok.lens, hready.ok.depth, hready.ok.leaves, hready.ok.alphaN, hready.ok.alphaF,
      hready.ok.featSub⟩
    solvable := hready.solvable }
  obtain ⟨f, w1, h⟩ := hready.run R mem budget
  obtain ⟨f', w1', h'⟩ := hready'.run R mem budget
  exact ⟨f, f', w1, w1', h, h', C104_more_trees R mem w cfg n hn data r budget f f' w1 w1' h h'⟩

/-! ### The hypotheses are met -/

theorem exArgs_ready : TreeReady exArgs := ⟨exArgs_ok, trainOK_exArgs, rfl, rfl, fun q => (by cases q)⟩

/-- The example tree and forests are ready. -/
example : TreeReady exArgs ∧ ForestReady fcfgQ exData (exWorld.arrays.getD 0 []) ∧
    ForestReady fcfgBoost exData (exWorldReg.arrays.getD 0 []) := by
  refine ⟨exArgs_ready, ⟨fun q => (by cases q), fun _ => rfl, fun _ => ?_, ⟨by decide, by decide, by decide, by decide, fun m h => (by cases h),
    by decide +kernel, by decide +kernel, fun _ _ => trivial⟩, trivial⟩, ⟨fun _ => ⟨by decide, rfl⟩, fun q => (by cases q),
    fun q => (by cases q), ⟨by decide, by decide, by decide, by decide, fun m h => (by cases h), by decide +kernel, by decide +kernel,
    fun _ _ => trivial⟩, trivial⟩⟩
  have h : ∀ y ∈ exWorld.arrays.getD 0 [], y = 0 ∨ y = 1 := by decide +kernel
  intro y hy
  rcases h y hy with rfl | rfl
  · exact ⟨0, by simp⟩
  · exact ⟨1, by simp⟩

end FF
