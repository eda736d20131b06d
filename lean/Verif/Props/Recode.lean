import Verif.Proofs.RecodeRun
import Verif.Props.Tree2

set_option linter.unusedSectionVars false

/-!
# Properties C95–C97: the order of the rows, the units of the columns, the coding of the labels

The solvers look at a column only through the order of its values, and at the labels only through the impurity. Here two runs are
compared: one on the training data as they are, one on the same data with the rows in another order (C95, exact solver), with every column
put through an increasing map (C96), or with the labels recoded (C97). MABSplit reads what it finds in memory for candidates it has not
looked at, so its two runs are compared on the same memory, and its targets may be shifted or reflected, which leaves every impurity as it
is, but not scaled: what is in memory would not scale with them.
-/

namespace FF

open Spec

variable {K : Type} [Field K] [LinearOrder K] [IsStrictOrderedRing K] [FloorRing K] [NpFun K] {G : Type}

/-! ### Specification -/

/-- Column `j` of every row put through the map `φ j`. -/
def mapColumns (φ : Nat → K → K) (data : List (List K)) : List (List K) := data.map (fun row => row.mapIdx φ)

/-- A prediction with the label or value put through `ψ`; class probabilities stay. -/
def mapAnswer (ψ : K → K) : Pred K → Pred K
  | .cls l p => .cls (ψ l) p
  | .reg v => .reg (ψ v)

/-- The same tree up to the scales of the columns: same number of nodes, and nodes with the same number have the same children, test the
same column, and do so at corresponding thresholds. -/
structure SameShape (φ : Nat → K → K) (t t' : Tree K G) : Prop where
  size : t'.nodes.length = t.nodes.length
  node : ∀ (id : Nat) (nd nd' : Node K), t.nodes[id]? = some nd → t'.nodes[id]? = some nd' →
    nd'.left = nd.left ∧ nd'.right = nd.right ∧ nd'.splitFeature = nd.splitFeature ∧
      ∀ f, nd.splitFeature = some f → nd'.splitValue = φ f nd.splitValue

/-- Thresholds are not drawn from discretised columns. -/
def NoDiscrete (binType : Option BinType) (makeDiscrete : Bool) : Prop :=
  makeDiscrete = false ∨ binType = some .linear ∨ binType = some .identity

/-- Maps of the columns that the candidate thresholds follow: any with one candidate per value (IDENTITY), affine ones with evenly spaced
candidates (LINEAR). -/
def ScalesOK (binType : Option BinType) (φ : Nat → K → K) : Prop :=
  binType = some .identity ∨ (binType = some .linear ∧ ∀ f, ∃ a b : K, ∀ x, φ f x = a * x + b)

/-! ### Trees -/

theorem recodePred_eq (ψ : K → K) : (recodePred ψ : Pred K → Pred K) = mapAnswer ψ := by
  funext p
  cases p <;> rfl

theorem mapAnswer_id (p : Pred K) : mapAnswer (fun y => y) p = p := by
  cases p <;> rfl

theorem except_map_id {α : Type} (x : Except Err α) {g : α → α} (h : ∀ a, g a = a) : x.map g = x := by
  cases x with
  | error e => rfl
  | ok a => exact congrArg Except.ok (h a)

theorem recodeRow_id (row : List K) : recodeRow (fun _ x => x) row = row := by
  apply List.ext_getElem?
  intro j
  rw [recodeRow_get?]
  cases row[j]? <;> rfl

theorem recodeMinmax_id (mm : Option (List K × List K)) : recodeMinmax (fun _ x => x) mm = mm := by
  cases mm with
  | none => rfl
  | some m => simp only [recodeMinmax, Option.map_some, recodeRow_id]

theorem runTree_parts {R : Rng K G} {mem : Nat → Junk K} {A : TreeArgs K} {glob : Glob G} {t : Tree K G}
    (h : runTree R mem A glob = .ok t) : ∃ t0 glob', Constructed R A t0 ∧ Tree.fit R mem t0 glob none none = .ok (t, glob') := by
  unfold runTree at h
  cases h1 : Tree.init R A.cfg A.data A.labels A.disc A.budget A.seed A.idcs A.feats with
  | error e => rw [h1] at h; cases h
  | ok p =>
    obtain ⟨t0, g0⟩ := p
    rw [h1] at h
    simp only [Bind.bind, Except.bind] at h
    cases h2 : Tree.fit R mem t0 glob none none with
    | error e => rw [h2] at h; cases h
    | ok q =>
      obtain ⟨t', g'⟩ := q
      rw [h2] at h
      cases h
      exact ⟨t0, g', ⟨g0, h1⟩, h2⟩

theorem runTree_recode {R : Rng K G} {mem mem' : Nat → Junk K} {A A' : TreeArgs K} {φ : Nat → K → K} {ψ : K → K} {s : K}
    (hr : Recode A A' φ ψ s) (hA : ArgsOK A) (hex : Comparable True A A' φ ψ s mem mem') (hcl : A.cfg.isCls = true → ClassesOK A.cfg.classes)
    (hmean : A.cfg.isCls = false → ∀ ys : List K, ys ≠ [] → npMean (ys.map ψ) = ψ (npMean ys)) {glob : Glob G} {t t' : Tree K G}
    (h : runTree R mem A glob = .ok t) (h' : runTree R mem' A' glob = .ok t') :
    SameShape φ t t' ∧ t'.numQueries = t.numQueries ∧
      ∀ x, (t'.predict (recodeRow φ x)).map Prod.fst = ((t.predict x).map Prod.fst).map (mapAnswer ψ) := by
  obtain ⟨t0, g1, hc, hf⟩ := runTree_parts h
  obtain ⟨t0', g1', hc', hf'⟩ := runTree_parts h'
  obtain ⟨hs, _⟩ := fit_recode hr hA hex (fun _ => trivial) hc hc' (fun _ => rfl) hf hf'
  refine ⟨⟨hs.len, fun id nd nd' hn hn' => ?_⟩, hs.queries, fun x => ?_⟩
  · have k := hs.nodes id nd nd' hn hn'
    exact ⟨k.left, k.right, k.feat, k.value⟩
  · obtain ⟨dd, s0, ff⟩ := (runTree_fitted h).facts
    obtain ⟨dd', s0', ff'⟩ := (runTree_fitted h').facts
    rw [(predict_cache ff.cache x).1, (predict_cache ff'.cache (recodeRow φ x)).1, purePredict_recode hr ff ff' hs hcl hmean x,
      recodePred_eq]

theorem samples_all {A : TreeArgs K} (hidx : A.idcs = none) (hlen : A.data.length = A.labels.length) :
    A.rows.map A.sample = A.data.zip A.labels := by
  have := zip_eq_range A.data A.labels hlen
  unfold TreeArgs.rows
  rw [hidx, ← this, hlen]
  rfl

theorem sameCost_id (isCls : Bool) : SameCost isCls (fun y : K => y) :=
  ⟨fun _ => strictMono_id, fun _ => ⟨1, 0, one_mul 1, fun _ => by ring⟩⟩

theorem runTree_lens {R : Rng K G} {mem : Nat → Junk K} {A : TreeArgs K} {glob : Glob G} {t : Tree K G}
    (h : runTree R mem A glob = .ok t) : A.data.length = A.labels.length := by
  obtain ⟨t0, _, hc, _⟩ := runTree_parts h
  exact hc.lens

section
variable (R : Rng K G) (mem mem' : Nat → Junk K) (A : TreeArgs K)

/-- C95, trees: a tree fitted by the exact solver to all rows does not depend on the order of the rows (whatever junk the two runs find
in memory): same nodes, same tests, same answers, same cost. -/
theorem C95_tree_row_order (hA : ArgsOK A) (hex : A.cfg.solver = .exact) (hdisc : NoDiscrete A.cfg.binType A.cfg.makeDiscrete)
    (hcl : A.cfg.isCls = true → ClassesOK A.cfg.classes) (hall : A.idcs = none) (F : Nat) (hrect : ∀ row ∈ A.data, row.length = F)
    (data' : List (List K)) (labels' : List K) (hlen : A.data.length = A.labels.length) (hlen' : data'.length = labels'.length)
    (hperm : (data'.zip labels').Perm (A.data.zip A.labels)) (glob : Glob G) (t t' : Tree K G)
    (h : runTree R mem A glob = .ok t) (h' : runTree R mem' { A with data := data', labels := labels' } glob = .ok t') :
    SameShape (fun _ x => x) t t' ∧ t'.numQueries = t.numQueries ∧
      ∀ x, (t'.predict x).map Prod.fst = (t.predict x).map Prod.fst := by
  have hd : data'.Perm A.data := by
    have := hperm.map Prod.fst
    rwa [List.map_fst_zip hlen'.le, List.map_fst_zip hlen.le] at this
  have hid : ∀ p : List K × K, recodeSample (fun _ x => x) (fun y => y) p = p := by
    intro p
    unfold recodeSample
    rw [recodeRow_id]
  have hr : Recode A { A with data := data', labels := labels' } (fun _ x => x) (fun y => y) 1 := {
    cfg := by
      show A.cfg = _
      unfold recodeCfg
      rw [recodeMinmax_id, one_mul]
      simp
    cols := by
      show A.feats.getD _ = A.feats.getD _
      congr 2
      cases hA0 : A.data with
      | nil =>
        rw [hA0] at hd
        rw [hd.eq_nil]
      | cons row rows =>
        have hm : data'.getD 0 [] ∈ data' := by
          cases hd0 : data' with
          | nil =>
            rw [hd0, hA0] at hd
            cases hd.symm.eq_nil
          | cons a as => simp
        rw [hrect _ (hd.mem_iff.1 hm)]
        exact (hrect row (by rw [hA0]; simp)).symm
    seed := rfl
    budget := rfl
    disc := rfl
    size := by
      show labels'.length = _
      rw [← hlen, ← hlen', hd.length_eq]
    perm := by
      rw [samples_all hall hlen, samples_all (A := { A with data := data', labels := labels' }) hall hlen']
      rw [List.map_congr_left (fun p _ => hid p), List.map_id']
      exact hperm
    mono := fun _ => strictMono_id
    inj := fun _ _ h => h
    pos := one_pos
    imp := fun ys => by rw [List.map_id', one_mul]
    grid := Or.inr (Or.inr fun _ _ => rfl)
    nodisc := hdisc }
  obtain ⟨h1, h2, h3⟩ := runTree_recode hr hA (Or.inl hex) hcl (fun _ ys _ => by rw [List.map_id']) h h'
  refine ⟨h1, h2, fun x => ?_⟩
  have := h3 x
  rwa [recodeRow_id, except_map_id _ mapAnswer_id] at this

/-- C96, trees: put every column through an increasing map — any map for the default binning with one candidate per value, affine maps for
evenly spaced candidates — and the solver (exact, or MABSplit on the same memory) grows the same tree with the thresholds mapped; it
answers for a mapped point what the first tree answers for the point. -/
theorem C96_tree_units (hA : ArgsOK A) (hsolver : A.cfg.solver = .exact ∨ mem' = mem) (hcl : A.cfg.isCls = true → ClassesOK A.cfg.classes)
    (hrows : ∀ i ∈ A.rows, i < A.data.length)
    (φ : Nat → K → K) (hmono : ∀ f, StrictMono (φ f)) (hscale : ScalesOK A.cfg.binType φ) (glob : Glob G) (t t' : Tree K G)
    (h : runTree R mem A glob = .ok t)
    (h' : runTree R mem' { A with
      data := mapColumns φ A.data
      cfg := { A.cfg with minmax := A.cfg.minmax.map (fun m => (m.1.mapIdx φ, m.2.mapIdx φ)) } } glob = .ok t') :
    SameShape φ t t' ∧ t'.numQueries = t.numQueries ∧
      ∀ x, (t'.predict (x.mapIdx φ)).map Prod.fst = (t.predict x).map Prod.fst := by
  have hsample : ∀ i < A.data.length, TreeArgs.sample { A with
      data := mapColumns φ A.data
      cfg := { A.cfg with minmax := A.cfg.minmax.map (fun m => (m.1.mapIdx φ, m.2.mapIdx φ)) } } i =
        recodeSample φ (fun y => y) (A.sample i) := by
    intro i hi
    show ((mapColumns φ A.data).getD i [], A.labels.getD i 0) = (recodeRow φ (A.data.getD i []), A.labels.getD i 0)
    unfold mapColumns
    rw [List.getD_eq_getElem?_getD, List.getElem?_map, List.getElem?_eq_getElem hi, List.getD_eq_getElem _ _ hi]
    rfl
  have hr : Recode A { A with
      data := mapColumns φ A.data
      cfg := { A.cfg with minmax := A.cfg.minmax.map (fun m => (m.1.mapIdx φ, m.2.mapIdx φ)) } } φ (fun y => y) 1 := {
    cfg := by
      show ({ A.cfg with minmax := _ } : TreeCfg K) = _
      unfold recodeCfg
      rw [one_mul]
      simp only [List.map_id', recodeMinmax]
      rfl
    cols := by
      show A.feats.getD _ = A.feats.getD _
      congr 2
      unfold mapColumns
      cases A.data with
      | nil => rfl
      | cons row rows => exact recodeRow_length φ row
    seed := rfl
    budget := rfl
    disc := rfl
    size := rfl
    perm := by
      refine List.Perm.of_eq ?_
      rw [List.map_map]
      exact List.map_congr_left (fun i hi => hsample i (hrows i hi))
    mono := hmono
    inj := fun _ _ h => h
    pos := one_pos
    imp := fun ys => by rw [List.map_id', one_mul]
    grid := by
      rcases hscale with h | h
      · exact Or.inl h
      · exact Or.inr (Or.inl h)
    nodisc := by
      rcases hscale with h | h
      · exact Or.inr (Or.inr h)
      · exact Or.inr (Or.inl h.1) }
  obtain ⟨h1, h2, h3⟩ := runTree_recode hr hA (hsolver.imp_right fun q => ⟨⟨rfl, hsample⟩, sameCost_id _, rfl, q, trivial⟩) hcl
    (fun _ ys _ => by rw [List.map_id']) h h'
  refine ⟨h1, h2, fun x => ?_⟩
  have := h3 x
  rwa [except_map_id _ mapAnswer_id] at this

theorem sample_label (ψ : K → K) {i : Nat} (hi : i < A.labels.length) (cfg : TreeCfg K) :
    TreeArgs.sample { A with labels := A.labels.map ψ, cfg := cfg } i = recodeSample (fun _ x => x) ψ (A.sample i) := by
  show (A.data.getD i [], (A.labels.map ψ).getD i 0) = (recodeRow _ (A.data.getD i []), ψ (A.labels.getD i 0))
  rw [recodeRow_id, List.getD_eq_getElem _ _ (by rw [List.length_map]; exact hi : i < (A.labels.map ψ).length), List.getElem_map,
    List.getD_eq_getElem _ _ hi]

theorem rows_labels (ψ : K → K) (cfg : TreeCfg K) : TreeArgs.rows { A with labels := A.labels.map ψ, cfg := cfg } = A.rows := by
  show A.idcs.getD (List.range (A.labels.map ψ).length) = _
  rw [List.length_map]
  rfl

theorem aligned_labels (ψ : K → K) (cfg : TreeCfg K) (hlen : A.data.length = A.labels.length) :
    Aligned A { A with labels := A.labels.map ψ, cfg := cfg } (fun _ x => x) ψ :=
  ⟨rows_labels A ψ cfg, fun _ hi => sample_label A ψ (hlen ▸ hi) cfg⟩

theorem samples_labels (ψ : K → K) (hrows : ∀ i ∈ A.rows, i < A.labels.length) (cfg : TreeCfg K) :
    (TreeArgs.rows { A with labels := A.labels.map ψ, cfg := cfg }).map (TreeArgs.sample { A with labels := A.labels.map ψ, cfg := cfg }) =
      (A.rows.map A.sample).map (recodeSample (fun _ x => x) ψ) := by
  rw [rows_labels, List.map_map]
  exact List.map_congr_left (fun i hi => sample_label A ψ (hrows i hi) cfg)

/-- C97, regression trees: measure the targets in other units (`a·y + b` with `a ≠ 0`), with the threshold `min_impurity_decrease` in the
matching units, and the exact solver grows the same tree, whose answers are the first tree's in the new units. So does MABSplit on the same
memory if `a` is 1 or −1. -/
theorem C97_tree_targets (hA : ArgsOK A) (hreg : A.cfg.isCls = false)
    (hdisc : NoDiscrete A.cfg.binType A.cfg.makeDiscrete) (hrows : ∀ i ∈ A.rows, i < A.labels.length) (a b : K) (ha : a ≠ 0)
    (hsolver : A.cfg.solver = .exact ∨ (a ^ 2 = 1 ∧ mem' = mem))
    (hcl : A.cfg.classes = []) (glob : Glob G) (t t' : Tree K G) (h : runTree R mem A glob = .ok t)
    (h' : runTree R mem' { A with
      labels := A.labels.map (fun y => a * y + b), cfg := { A.cfg with minImpDec := a ^ 2 * A.cfg.minImpDec } } glob = .ok t') :
    SameShape (fun _ x => x) t t' ∧ t'.numQueries = t.numQueries ∧
      ∀ x, (t'.predict x).map Prod.fst = ((t.predict x).map Prod.fst).map (mapAnswer (fun y => a * y + b)) := by
  have hcrit : A.cfg.criterion = .mse := by
    have := hA.crit
    unfold CritFits at this
    rw [hreg] at this
    simpa using this
  have hr : Recode A { A with
      labels := A.labels.map (fun y => a * y + b), cfg := { A.cfg with minImpDec := a ^ 2 * A.cfg.minImpDec } }
      (fun _ x => x) (fun y => a * y + b) (a ^ 2) := {
    cfg := by
      show ({ A.cfg with minImpDec := _ } : TreeCfg K) = _
      unfold recodeCfg
      rw [recodeMinmax_id]
      have : A.cfg.classes.map (fun c => (a * c.1 + b, c.2)) = A.cfg.classes := by rw [hcl]; rfl
      rw [this]
    cols := rfl
    seed := rfl
    budget := rfl
    disc := rfl
    size := List.length_map _
    perm := List.Perm.of_eq (samples_labels A _ hrows _)
    mono := fun _ => strictMono_id
    inj := fun x y hxy => mul_left_cancel₀ ha (add_right_cancel hxy)
    pos := lt_of_le_of_ne (sq_nonneg a) (Ne.symm (pow_ne_zero 2 ha))
    imp := fun ys => by rw [hcrit]; exact variance_affine a b ys
    grid := Or.inr (Or.inr fun _ _ => rfl)
    nodisc := hdisc }
  obtain ⟨h1, h2, h3⟩ := runTree_recode hr hA (hsolver.imp_right fun q => ⟨aligned_labels A _ _ (runTree_lens h),
    ⟨fun p => (by rw [hreg] at p; cases p), fun _ => ⟨a, b, by rw [← sq]; exact q.1, fun _ => rfl⟩⟩, q.1, q.2, trivial⟩)
    (fun q => by rw [hreg] at q; cases q) (fun _ ys hys => npMean_affine a b hys) h h'
  refine ⟨h1, h2, fun x => ?_⟩
  have := h3 x
  rwa [recodeRow_id] at this

/-- C97, classification trees: rename the classes, and the exact solver grows the same tree, which answers with the new names and the same
probabilities. So does MABSplit on the same memory if the new names are in the order of the old. -/
theorem C97_tree_classes (hA : ArgsOK A) (hcls : A.cfg.isCls = true) (hcl : ClassesOK A.cfg.classes)
    (hdisc : NoDiscrete A.cfg.binType A.cfg.makeDiscrete) (hrows : ∀ i ∈ A.rows, i < A.labels.length) (ψ : K → K)
    (hψ : Function.Injective ψ) (hsolver : A.cfg.solver = .exact ∨ (StrictMono ψ ∧ mem' = mem)) (glob : Glob G) (t t' : Tree K G) (h : runTree R mem A glob = .ok t)
    (h' : runTree R mem' { A with
      labels := A.labels.map ψ, cfg := { A.cfg with classes := A.cfg.classes.map (fun c => (ψ c.1, c.2)) } } glob = .ok t') :
    SameShape (fun _ x => x) t t' ∧ t'.numQueries = t.numQueries ∧
      ∀ x, (t'.predict x).map Prod.fst = ((t.predict x).map Prod.fst).map (mapAnswer ψ) := by
  have hcrit : A.cfg.criterion = .gini ∨ A.cfg.criterion = .entropy := by
    have := hA.crit
    unfold CritFits at this
    rw [hcls] at this
    simpa using this
  have hr : Recode A { A with
      labels := A.labels.map ψ, cfg := { A.cfg with classes := A.cfg.classes.map (fun c => (ψ c.1, c.2)) } } (fun _ x => x) ψ 1 := {
    cfg := by
      show ({ A.cfg with classes := _ } : TreeCfg K) = _
      unfold recodeCfg
      rw [recodeMinmax_id, one_mul]
    cols := rfl
    seed := rfl
    budget := rfl
    disc := rfl
    size := List.length_map _
    perm := List.Perm.of_eq (samples_labels A _ hrows _)
    mono := fun _ => strictMono_id
    inj := hψ
    pos := one_pos
    imp := fun ys => by rw [one_mul]; exact critImp_inj hcrit hψ ys
    grid := Or.inr (Or.inr fun _ _ => rfl)
    nodisc := hdisc }
  obtain ⟨h1, h2, h3⟩ := runTree_recode hr hA (hsolver.imp_right fun q => ⟨aligned_labels A _ _ (runTree_lens h),
    ⟨fun _ => q.1, fun p => (by rw [hcls] at p; cases p)⟩, rfl, q.2, trivial⟩) (fun _ => hcl) (fun q => by rw [hcls] at q; cases q) h h'
  refine ⟨h1, h2, fun x => ?_⟩
  have := h3 x
  rwa [recodeRow_id] at this

end

/-! ### Forests -/

section
variable (R : Rng K G) (mem mem' : Nat → Nat → Junk K) (w w' : World K G) (cfg : ForestCfg K) (data data' : List (List K)) (r r' : Nat)
  (budget : Option Int)

theorem labelMap_id (isCls : Bool) : LabelMap isCls (fun y : K => y) (fun y => y) 1 :=
  ⟨fun _ => ⟨fun _ _ h => h, fun _ => rfl, rfl⟩, fun _ => ⟨1, 0, one_ne_zero, fun _ => by ring, fun _ => by ring, by ring⟩⟩

theorem scaleCfg_one : scaleCfg 1 cfg = cfg := by
  unfold scaleCfg
  rw [one_mul]

/-- C95, forests: without bootstrap and random subsets, a forest of exactly solved trees — boosted or not — does not depend on the order of
the rows. -/
theorem C95_forest_row_order (hex : cfg.solver = .exact) (hboot : cfg.bootstrap = false) (hN : ¬ cfg.alphaN < 1) (hF : ¬ cfg.alphaF < 1)
    (hdisc : NoDiscrete cfg.binType cfg.makeDiscrete) (hbins : cfg.useLog = false → cfg.numBins ≠ some 1) (F : Nat)
    (hrect : ∀ row ∈ data, row.length = F) (hlen : data.length = (w.arrays.getD r []).length)
    (hlen' : data'.length = (w'.arrays.getD r' []).length)
    (hperm : (data'.zip (w'.arrays.getD r' [])).Perm (data.zip (w.arrays.getD r []))) (f f' : Forest K G) (w1 w1' : World K G)
    (h : runForest R mem w cfg data r budget = .ok (f, w1)) (h' : runForest R mem' w' cfg data' r' budget = .ok (f', w1')) :
    f'.trees.length = f.trees.length ∧ f'.numQueries = f.numQueries ∧
      ∀ x, (f'.predict x).map Prod.fst = (f.predict x).map Prod.fst := by
  have hid : ∀ p : List K × K, recodeSample (fun _ x => x) (fun y => y) p = p := by
    intro p
    unfold recodeSample
    rw [recodeRow_id]
  have k := runForest_recode (R := R) (φ := fun _ x => x) (ψ := fun y => y)
    ⟨hlen, hlen', Or.inr ⟨hboot, by rintro (q | q); exacts [hN q, hF q], by
      rw [List.map_congr_left (fun p _ => hid p), List.map_id']
      exact hperm, fun q => absurd hex q⟩⟩
    hrect (fun _ => strictMono_id) (Or.inr (Or.inr fun _ _ => rfl)) (by
      rcases hdisc with h | h | h
      exacts [Or.inr (Or.inr h), Or.inl h, Or.inr (Or.inl h)])
    (labelMap_id cfg.isCls) (fun _ => ⟨strictMono_id, fun _ _ => rfl⟩) (Or.inl hex) hbins h (by rw [scaleCfg_one]; exact h')
  refine ⟨k.trees, k.queries, fun x => ?_⟩
  have := k.predict x
  rwa [recodeRow_id, recodePred_eq, except_map_id _ mapAnswer_id] at this

/-- C96, forests: put every column of the training data through an increasing map that suits the binning. A forest, boosted or not, of exactly
solved trees, or of trees solved by MABSplit on the same memory (with the same seed, bootstrap and subsets included), answers for mapped points as
before. -/
theorem C96_forest_units (hsolver : cfg.solver = .exact ∨ mem' = mem)
    (hbins : cfg.useLog = false → cfg.numBins ≠ some 1) (F : Nat) (hrect : ∀ row ∈ data, row.length = F)
    (hlen : data.length = (w.arrays.getD r []).length) (φ : Nat → K → K) (hmono : ∀ f, StrictMono (φ f))
    (hscale : ScalesOK cfg.binType φ) (hlabels : w'.arrays.getD r' [] = w.arrays.getD r []) (f f' : Forest K G) (w1 w1' : World K G)
    (h : runForest R mem w cfg data r budget = .ok (f, w1))
    (h' : runForest R mem' w' cfg (mapColumns φ data) r' budget = .ok (f', w1')) :
    f'.trees.length = f.trees.length ∧ f'.numQueries = f.numQueries ∧
      ∀ x, (f'.predict (x.mapIdx φ)).map Prod.fst = (f.predict x).map Prod.fst := by
  have hz : (mapColumns φ data).zip (w'.arrays.getD r' []) = (data.zip (w.arrays.getD r [])).map (recodeSample φ (fun y => y)) := by
    rw [hlabels]
    unfold mapColumns
    rw [List.zip_map_left]
    rfl
  have hlen' : (mapColumns φ data).length = (w'.arrays.getD r' []).length := by
    unfold mapColumns
    rw [List.length_map, hlabels, hlen]
  have k := runForest_recode (R := R) (φ := φ) (ψ := fun y => y)
    ⟨hlen, hlen', Or.inl ⟨Or.inr fun _ => rfl, hz⟩⟩
    hrect hmono (by
      rcases hscale with h | h
      exacts [Or.inl h, Or.inr (Or.inl h)])
    (by
      rcases hscale with h | h
      exacts [Or.inr (Or.inl h), Or.inl h.1])
    (labelMap_id cfg.isCls) (fun _ => ⟨strictMono_id, fun _ _ => rfl⟩)
    (hsolver.imp_right fun q => ⟨sameCost_id _, sameCost_id _, rfl, q⟩) hbins h (by rw [scaleCfg_one]; exact h')
  refine ⟨k.trees, k.queries, fun x => ?_⟩
  have := k.predict x
  rwa [recodePred_eq, except_map_id _ mapAnswer_id] at this

/-- C97, regression forests, boosted or not: targets `a·y + b` (`a ≠ 0`) with `min_impurity_decrease` multiplied by `a²` give the same
forest, with answers `a·v + b`: for exactly solved trees, and for MABSplit on the same memory if `a` is 1 or −1. Boosting with bootstrap or
random subsets needs `b = 0`: `C97_boosted_offset`. -/
theorem C97_forest_targets (hreg : cfg.isCls = false)
    (hdisc : NoDiscrete cfg.binType cfg.makeDiscrete) (hbins : cfg.useLog = false → cfg.numBins ≠ some 1) (F : Nat)
    (hrect : ∀ row ∈ data, row.length = F) (hlen : data.length = (w.arrays.getD r []).length) (a b : K) (ha : a ≠ 0)
    (hmode : cfg.boosting = false ∨ b = 0 ∨ (cfg.bootstrap = false ∧ ¬ cfg.alphaN < 1 ∧ ¬ cfg.alphaF < 1))
    (hsolver : cfg.solver = .exact ∨ (a ^ 2 = 1 ∧ mem' = mem))
    (hlabels : w'.arrays.getD r' [] = (w.arrays.getD r []).map (fun y => a * y + b)) (f f' : Forest K G) (w1 w1' : World K G)
    (h : runForest R mem w cfg data r budget = .ok (f, w1))
    (h' : runForest R mem' w' { cfg with minImpDec := a ^ 2 * cfg.minImpDec } data r' budget = .ok (f', w1')) :
    f'.trees.length = f.trees.length ∧ f'.numQueries = f.numQueries ∧
      ∀ x, (f'.predict x).map Prod.fst = ((f.predict x).map Prod.fst).map (mapAnswer (fun y => a * y + b)) := by
  have hz : data.zip (w'.arrays.getD r' []) = (data.zip (w.arrays.getD r [])).map (recodeSample (fun _ x => x) (fun y => a * y + b)) := by
    rw [hlabels, List.zip_map_right]
    refine List.map_congr_left (fun p _ => ?_)
    show (p.1, _) = (recodeRow _ p.1, _)
    rw [recodeRow_id]
  have hlen' : data.length = (w'.arrays.getD r' []).length := by rw [hlabels, List.length_map, hlen]
  have k := runForest_recode (R := R) (φ := fun _ x => x) (ψ := fun y => a * y + b) (ψ1 := fun y => a * y) (s := a ^ 2)
    ⟨hlen, hlen', by
      rcases hmode with hm | hm | ⟨hm1, hm2, hm3⟩
      · exact Or.inl ⟨Or.inl hm, hz⟩
      · exact Or.inl ⟨Or.inr fun y => by rw [hm, add_zero], hz⟩
      · exact Or.inr ⟨hm1, by rintro (q | q); exacts [hm2 q, hm3 q], List.Perm.of_eq hz, fun _ => hz⟩⟩
    hrect (fun _ => strictMono_id) (Or.inr (Or.inr fun _ _ => rfl)) (by
      rcases hdisc with h | h | h
      exacts [Or.inr (Or.inr h), Or.inl h, Or.inr (Or.inl h)])
    ⟨fun q => (by rw [hreg] at q; cases q), fun _ => ⟨a, b, ha, fun _ => rfl, fun _ => rfl, rfl⟩⟩
    (fun q => by rw [hreg] at q; cases q)
    (hsolver.imp_right fun q => ⟨⟨fun p => (by rw [hreg] at p; cases p), fun _ => ⟨a, b, by rw [← sq]; exact q.1, fun _ => rfl⟩⟩,
      ⟨fun p => (by rw [hreg] at p; cases p), fun _ => ⟨a, 0, by rw [← sq]; exact q.1, fun y => (add_zero (a * y)).symm⟩⟩, q.1, q.2⟩) hbins h h'
  refine ⟨k.trees, k.queries, fun x => ?_⟩
  have := k.predict x
  rwa [recodeRow_id, recodePred_eq] at this

/-- C97, classification forests: whole-number labels renumbered by an increasing map to whole numbers give the same forest, with the new
labels: for exactly solved trees, and for MABSplit on the same memory. -/
theorem C97_forest_classes (hsolver : cfg.solver = .exact ∨ mem' = mem) (hcls : cfg.isCls = true) (hdisc : NoDiscrete cfg.binType cfg.makeDiscrete)
    (hbins : cfg.useLog = false → cfg.numBins ≠ some 1) (F : Nat) (hrect : ∀ row ∈ data, row.length = F)
    (hlen : data.length = (w.arrays.getD r []).length) (ψ : K → K) (hψ : StrictMono ψ)
    (hint : ∀ y ∈ w.arrays.getD r [], (∃ n : Int, y = n) ∧ ∃ n : Int, ψ y = n)
    (hlabels : w'.arrays.getD r' [] = (w.arrays.getD r []).map ψ) (f f' : Forest K G) (w1 w1' : World K G)
    (h : runForest R mem w cfg data r budget = .ok (f, w1)) (h' : runForest R mem' w' cfg data r' budget = .ok (f', w1')) :
    f'.trees.length = f.trees.length ∧ f'.numQueries = f.numQueries ∧
      ∀ x, (f'.predict x).map Prod.fst = ((f.predict x).map Prod.fst).map (mapAnswer ψ) := by
  have htr : ∀ n : Int, truncInt ((n : Int) : K) = n := by
    intro n
    unfold truncInt
    split_ifs
    · rw [Int.floor_intCast]
    · rw [Int.ceil_intCast]
  have hbo : cfg.boosting = false := by
    cases hb : cfg.boosting with
    | false => rfl
    | true =>
      unfold runForest at h
      cases hi : Forest.init R w cfg none (some data) (some r) budget with
      | error e => rw [hi] at h; cases h
      | ok q => rw [(Forest_init_more hi).2.2.2 hb] at hcls; cases hcls
  have hz : data.zip (w'.arrays.getD r' []) = (data.zip (w.arrays.getD r [])).map (recodeSample (fun _ x => x) ψ) := by
    rw [hlabels, List.zip_map_right]
    refine List.map_congr_left (fun p _ => ?_)
    show (p.1, _) = (recodeRow _ p.1, _)
    rw [recodeRow_id]
  have hlen' : data.length = (w'.arrays.getD r' []).length := by rw [hlabels, List.length_map, hlen]
  have k := runForest_recode (R := R) (φ := fun _ x => x) (ψ := ψ) (ψ1 := fun y => y) (s := 1)
    ⟨hlen, hlen', Or.inl ⟨Or.inl hbo, hz⟩⟩
    hrect (fun _ => strictMono_id) (Or.inr (Or.inr fun _ _ => rfl)) (by
      rcases hdisc with h | h | h
      exacts [Or.inr (Or.inr h), Or.inl h, Or.inr (Or.inl h)])
    ⟨fun _ => ⟨hψ.injective, fun _ => rfl, rfl⟩, fun q => (by rw [hcls] at q; cases q)⟩
    (fun _ => ⟨hψ, fun y hy => by
      obtain ⟨⟨n, rfl⟩, m, hm⟩ := hint y hy
      rw [htr, hm, htr]⟩)
    (hsolver.imp_right fun q => ⟨⟨fun _ => hψ, fun p => (by rw [hcls] at p; cases p)⟩, sameCost_id _, rfl, q⟩) hbins h (by rw [scaleCfg_one]; exact h')
  refine ⟨k.trees, k.queries, fun x => ?_⟩
  have := k.predict x
  rwa [recodeRow_id, recodePred_eq] at this

end

/-! ### The hypotheses are met -/

/-- Shape of a tree, for examples: column, threshold and children of each node. -/
def shapeOf (t : Tree ℚ Nat) : List (Option Nat × ℚ × Option Nat × Option Nat) :=
  t.nodes.map (fun n => (n.splitFeature, n.splitValue, n.left, n.right))

/-- The six rows of the example, last row first. -/
def exArgsRev : TreeArgs ℚ := { exArgs with data := exArgs.data.reverse, labels := exArgs.labels.reverse }

/-- An affine map for column 0, one that is not affine for the others. -/
def exScale : Nat → ℚ → ℚ := fun j x => if j = 0 then 10 * x + 3 else max x (2 * x)

theorem exScale_mono : ∀ f, StrictMono (exScale f) := by
  intro f x y hxy
  unfold exScale
  split_ifs
  · linarith
  · rcases le_total (2 * x) x with h | h
    · rw [max_eq_left h]
      exact lt_max_iff.2 (Or.inl hxy)
    · rw [max_eq_right h]
      exact lt_max_iff.2 (Or.inr (by linarith))

/-- C95, trees: an instance. Both runs succeed, with three splits; the theorem applies. -/
example : ∃ t t' : Tree ℚ Nat, runTree rngQ exMem exArgs exGlob = .ok t ∧ runTree rngQ exMem exArgsRev exGlob = .ok t' ∧
    t.numSplits = 3 ∧ ∀ x, (t'.predict x).map Prod.fst = (t.predict x).map Prod.fst := by
  have h1 : (runTree rngQ exMem exArgs exGlob).toOption.any (fun (t : Tree ℚ Nat) => t.numSplits == 3) = true := by decide +kernel
  have h2 : (runTree rngQ exMem exArgsRev exGlob).toOption.isSome = true := by decide +kernel
  cases ha : runTree rngQ exMem exArgs exGlob with
  | error e => rw [ha] at h1; cases h1
  | ok t =>
    cases hb : runTree rngQ exMem exArgsRev exGlob with
    | error e => rw [hb] at h2; cases h2
    | ok t' =>
      rw [ha] at h1
      refine ⟨t, t', rfl, rfl, by simpa [Except.toOption] using h1, ?_⟩
      exact (C95_tree_row_order rngQ exMem exMem exArgs exArgs_ok rfl (Or.inl rfl) (fun _ => ⟨by decide +kernel, by decide +kernel⟩) rfl 2 (by decide) _ _ rfl rfl
        (by decide) exGlob t t' ha hb).2.2

/-- C96, trees: an instance; the thresholds of the second tree are the images of those of the first. -/
example : ScalesOK exArgs.cfg.binType exScale ∧ (∀ row ∈ exArgs.data, row.length = 2) ∧ (∀ i ∈ exArgs.rows, i < exArgs.data.length) ∧
    (((runTree rngQ exMem exArgs exGlob).toOption.map shapeOf,
      (runTree rngQ exMem { exArgs with data := mapColumns exScale exArgs.data } exGlob).toOption.map shapeOf) ==
    (some [(some 0, 1, some 1, some 2), (none, 0, none, none), (some 0, 3, some 3, some 4), (none, 0, none, none),
       (some 0, 4, some 5, some 6), (none, 0, none, none), (none, 0, none, none)],
     some [(some 0, 13, some 1, some 2), (none, 0, none, none), (some 0, 33, some 3, some 4), (none, 0, none, none),
       (some 0, 43, some 5, some 6), (none, 0, none, none), (none, 0, none, none)])) = true :=
  ⟨Or.inl rfl, by decide, by decide, by decide +kernel⟩

/-- C97, trees: targets `1 - 2y`, and classes 0, 1 renamed 5, 4. -/
example :
    ((runTree rngQ exMem exArgsReg exGlob).toOption.bind (fun (t : Tree ℚ Nat) => ((t.predict [1, 1]).map Prod.fst).toOption),
      (runTree rngQ exMem { exArgsReg with labels := exArgsReg.labels.map (fun y => -2 * y + 1) } exGlob).toOption.bind
        (fun (t : Tree ℚ Nat) => ((t.predict [1, 1]).map Prod.fst).toOption)) = (some (.reg 3), some (.reg (-5))) ∧
    ((runTree rngQ exMem exArgs exGlob).toOption.bind (fun (t : Tree ℚ Nat) => ((t.predict [1, 1]).map Prod.fst).toOption),
      (runTree rngQ exMem { exArgs with
        labels := exArgs.labels.map (fun y => 5 - y), cfg := { exArgs.cfg with classes := exArgs.cfg.classes.map (fun c => (5 - c.1, c.2)) } }
        exGlob).toOption.bind (fun (t : Tree ℚ Nat) => ((t.predict [1, 1]).map Prod.fst).toOption)) =
      (some (.cls 0 [1, 0]), some (.cls 5 [1, 0])) := by
  decide +kernel

/-- Regression with MABSplit and four LINEAR bins. -/
def exArgsRegMab : TreeArgs ℚ :=
  { exArgsReg with cfg := { exArgsReg.cfg with solver := .mab, batch := 2, binType := some .linear, numBins := some 4 } }

/-- Affine maps of the two columns. -/
def exAffine : Nat → ℚ → ℚ := fun j x => if j = 0 then 10 * x + 3 else 2 * x

/-- C96 and C97, trees grown by MABSplit: columns in other units, and targets `1 - y`. -/
example : ScalesOK exArgsMab.cfg.binType exAffine ∧
    (((runTree rngQ exMem exArgsMab exGlob).toOption.map shapeOf,
      (runTree rngQ exMem { exArgsMab with data := mapColumns exAffine exArgsMab.data } exGlob).toOption.map shapeOf) ==
    (some [(some 1, 7 / 3, some 1, some 2), (some 1, 4 / 3, some 3, some 4), (none, 0, none, none), (none, 0, none, none),
       (none, 0, none, none)],
     some [(some 1, 14 / 3, some 1, some 2), (some 1, 8 / 3, some 3, some 4), (none, 0, none, none), (none, 0, none, none),
       (none, 0, none, none)])) = true ∧
    ((runTree rngQ exMem exArgsRegMab exGlob).toOption.bind (fun (t : Tree ℚ Nat) => ((t.predict [1, 1]).map Prod.fst).toOption),
      (runTree rngQ exMem { exArgsRegMab with labels := exArgsRegMab.labels.map (fun y => -1 * y + 1) } exGlob).toOption.bind
        (fun (t : Tree ℚ Nat) => ((t.predict [1, 1]).map Prod.fst).toOption)) = (some (.reg 3), some (.reg (-2))) := by
  refine ⟨Or.inr ⟨rfl, fun f => ?_⟩, by decide +kernel, by decide +kernel⟩
  unfold exAffine
  split_ifs
  · exact ⟨10, 3, fun _ => rfl⟩
  · exact ⟨2, 0, fun x => (add_zero _).symm⟩

/-- C95, boosted forests: both runs succeed with two trees; the theorem applies. -/
example : ∃ (f f' : Forest ℚ Nat) (w1 w1' : World ℚ Nat), runForest rngQ exMems exWorldReg fcfgBoost exData 0 none = .ok (f, w1) ∧
    runForest rngQ exMems { exWorldReg with arrays := exWorldReg.arrays.map List.reverse } fcfgBoost exData.reverse 0 none = .ok (f', w1') ∧
    f.trees.length = 2 ∧ ∀ x, (f'.predict x).map Prod.fst = (f.predict x).map Prod.fst := by
  have h1 : (runForest rngQ exMems exWorldReg fcfgBoost exData 0 none).toOption.any (fun r => r.1.trees.length == 2) = true := by
    decide +kernel
  have h2 : (runForest rngQ exMems { exWorldReg with arrays := exWorldReg.arrays.map List.reverse } fcfgBoost exData.reverse 0
      none).toOption.isSome = true := by decide +kernel
  cases ha : runForest rngQ exMems exWorldReg fcfgBoost exData 0 none with
  | error e => rw [ha] at h1; cases h1
  | ok q =>
    cases hb : runForest rngQ exMems { exWorldReg with arrays := exWorldReg.arrays.map List.reverse } fcfgBoost exData.reverse 0 none with
    | error e => rw [hb] at h2; cases h2
    | ok q' =>
      rw [ha] at h1
      refine ⟨q.1, q'.1, q.2, q'.2, rfl, rfl, by simpa [Except.toOption] using h1, ?_⟩
      exact (C95_forest_row_order rngQ exMems exMems exWorldReg { exWorldReg with arrays := exWorldReg.arrays.map List.reverse } fcfgBoost
        exData exData.reverse 0 0 none rfl rfl (by decide +kernel) (by decide +kernel) (Or.inl rfl) (fun _ => by decide) 2 (by decide)
        rfl rfl (by decide) q.1 q'.1 q.2 q'.2 ha hb).2.2

/-- C96 and C97, forests: a bootstrapped classification forest on mapped columns, the same with labels 0, 1 renumbered 3, 5, and a boosted
forest with targets `2y + 1`. -/
example :
    ((runForest rngQ exMems exWorld fcfgQ exData 0 none).toOption.bind (fun r => ((r.1.predict [2, 5]).map Prod.fst).toOption),
      (runForest rngQ exMems exWorld fcfgQ (mapColumns exScale exData) 0 none).toOption.bind
        (fun r => ((r.1.predict ([2, 5].mapIdx exScale)).map Prod.fst).toOption),
      (runForest rngQ exMems { exWorld with arrays := exWorld.arrays.map (fun l => l.map (fun y => 2 * y + 3)) } fcfgQ exData 0
        none).toOption.bind (fun r => ((r.1.predict [2, 5]).map Prod.fst).toOption)) =
      (some (.cls 1 [0, 1]), some (.cls 1 [0, 1]), some (.cls 5 [0, 1])) ∧
    ((runForest rngQ exMems exWorldReg fcfgBoost exData 0 none).toOption.bind (fun r => ((r.1.predict [2, 5]).map Prod.fst).toOption),
      (runForest rngQ exMems { exWorldReg with arrays := exWorldReg.arrays.map (fun l => l.map (fun y => 2 * y + 1)) } fcfgBoost exData 0
        none).toOption.bind (fun r => ((r.1.predict [2, 5]).map Prod.fst).toOption)) =
      (some (.reg (11 / 4)), some (.reg (13 / 2))) := by
  decide +kernel

/-- Boosted trees on bootstrap samples. -/
def fcfgBoostBag : ForestCfg ℚ := { fcfgBoost with bootstrap := true }

/-- The example world with other targets. -/
def exWorldRegMap (ψ : ℚ → ℚ) : World ℚ Nat := { exWorldReg with arrays := exWorldReg.arrays.map (List.map ψ) }

/-- Answers of a boosted forest on bootstrap samples. -/
def bagAnswers (w : World ℚ Nat) (data xs : List (List ℚ)) : Option (List (Pred ℚ)) :=
  (do
    let (f, _) ← runForest rngQ exMems w fcfgBoostBag data 0 none
    let (ps, _) ← f.predictBatch xs
    pure ps : Except Err _).toOption

/-- C96 and C97 for a boosted forest with bootstrap: columns in other units, targets `3y`. -/
example : bagAnswers exWorldReg exData exData = some [.reg 1, .reg 2, .reg (25 / 3), .reg (25 / 3), .reg (37 / 3), .reg 19] ∧
    bagAnswers exWorldReg (mapColumns exScale exData) (mapColumns exScale exData) =
      some [.reg 1, .reg 2, .reg (25 / 3), .reg (25 / 3), .reg (37 / 3), .reg 19] ∧
    bagAnswers (exWorldRegMap (fun y => 3 * y + 0)) exData exData = some [.reg 3, .reg 6, .reg 25, .reg 25, .reg 37, .reg 57] := by
  refine ⟨?_, ?_, ?_⟩ <;> decide +kernel

/-- C97 needs `b = 0` for boosting on random rows. With targets `y + 10` the third answer is 65/3 instead of 25/3 + 10: rows outside the
first sample keep the offset, which the first tree takes away from the others. -/
theorem C97_boosted_offset :
    bagAnswers (exWorldRegMap (fun y => 1 * y + 10)) exData exData =
      some [.reg 11, .reg 12, .reg (65 / 3), .reg (65 / 3), .reg (77 / 3), .reg 34] ∧
    (bagAnswers exWorldReg exData exData).map (List.map (mapAnswer (fun y => 1 * y + 10))) =
      some [.reg 11, .reg 12, .reg (55 / 3), .reg (55 / 3), .reg (67 / 3), .reg 29] := by
  refine ⟨?_, ?_⟩ <;> decide +kernel

end FF
