import Verif.Model.Forest

/-!
# `data_structures/wrappers/*.py`

The twenty wrapper classes are forests with some parameters fixed. None of them overrides `fit` or `predict`.
-/

namespace FF

variable {K : Type} [Field K] [LinearOrder K] [FloorRing K] [NpFun K] {G : Type}

/-- The wrapper classes; `gb` = GradientBoosted, `C` = Classifier, `R` = Regressor. -/
inductive Wrapper where
  | extraC | extraR | gbExtraC | gbExtraR
  | histC | histR | gbHistC | gbHistR
  | histPatchesC | histPatchesR | gbHistPatchesC | gbHistPatchesR
  | forestC | forestR | gbForestC | gbForestR
  | patchesC | patchesR | gbPatchesC | gbPatchesR
  deriving DecidableEq, Repr

/-- Subclass of `ForestClassifier` (`ForestRegressor` otherwise) — the `class` line of each file. -/
def Wrapper.isCls : Wrapper → Bool
  | .extraC | .gbExtraC | .histC | .gbHistC | .histPatchesC | .gbHistPatchesC | .forestC | .gbForestC | .patchesC | .gbPatchesC => true
  | _ => false

/-- Passes `boosting=True` to the forest. -/
def Wrapper.boosts : Wrapper → Bool
  | .gbExtraC | .gbExtraR | .gbHistC | .gbHistR | .gbHistPatchesC | .gbHistPatchesR | .gbForestC | .gbForestR | .gbPatchesC | .gbPatchesR => true
  | _ => false

/-- Trains on a random part of the data chosen in the constructor — `random_patches_classifier.py:44-51`,
`random_patches_regressor.py:44-49`, `gradient_boosted_random_patches_classifier.py:47-52`, `…_regressor.py:45-50`,
`gradient_boosted_histogram_random_patches_classifier.py:48-53`, `…_regressor.py:46-51`. -/
def Wrapper.subsamples : Wrapper → Bool
  | .patchesC | .patchesR | .gbPatchesC | .gbPatchesR | .gbHistPatchesC | .gbHistPatchesR => true
  | _ => false

/-- Requires `alpha_N` and `alpha_F` — `random_patches_classifier.py:39-40` and the other files with `patches` in their name. -/
def Wrapper.needsAlphas : Wrapper → Bool
  | .histPatchesC | .histPatchesR => true
  | k => k.subsamples

/-- Checks `boosting_lr` first — `gradient_boosted_random_forest_regressor.py:41-44`, `gradient_boosted_histogram_random_forest_regressor.py:39-42`. -/
def Wrapper.needsLr : Wrapper → Bool
  | .gbForestR | .gbHistR => true
  | _ => false

/-- The parameters of the wrappers' constructors. Each wrapper has a part of them: `numBins` exists for the classes with RANDOM and LINEAR
bins, `alphaN` and `alphaF` for the patches, `boostingLr` for the boosted ones, `bootstrap` for `GradientBoostedRandomForestRegressor`
only. -/
structure WrapArgs (K : Type) where
  nEstimators : Nat
  maxDepth : MaxDepth
  numBins : Option Nat
  minSamplesSplit : Nat
  minImpDec : K
  maxLeafNodes : Option Nat
  budget : Option Int
  criterion : Criterion
  splitter : Splitter
  solver : Solver
  randomState : Nat
  withRep : Bool
  boostingLr : Option K
  alphaN : Option K
  alphaF : Option K
  bootstrap : Bool
  deriving Repr

/-- The default values — the signatures of the constructors, e.g. `random_forest_classifier.py:18-34`. `DEFAULT_NUM_BINS = 11`
(`constants.py:39`); `num_bins` defaults to `None` in the two boosted extremely-random forests; `alpha_N`, `alpha_F` default to 1.0 in
the two `HistogramRandomPatches` classes (`histogram_random_patches_classifier.py:24-25`) and to `None` in the others. -/
def Wrapper.defaults (k : Wrapper) : WrapArgs K where
  nEstimators := 100
  maxDepth := .none
  numBins := match k with
    | .gbExtraC | .gbExtraR => none
    | _ => some 11
  minSamplesSplit := 2
  minImpDec := 0
  maxLeafNodes := none
  budget := none
  criterion := if k.isCls then .gini else .mse
  splitter := .best
  solver := .exact
  randomState := 0
  withRep := false
  boostingLr := none
  alphaN := match k with
    | .histPatchesC | .histPatchesR => some 1
    | _ => none
  alphaF := match k with
    | .histPatchesC | .histPatchesR => some 1
    | _ => none
  bootstrap := false

/-- `bootstrap=` in the call of the forest's constructor. -/
def Wrapper.bootstraps (k : Wrapper) (a : WrapArgs K) : Bool :=
  match k with
  | .extraC | .extraR | .gbHistR | .patchesC | .patchesR | .gbPatchesC | .gbPatchesR | .gbHistPatchesC | .gbHistPatchesR => false
  | .gbForestR => a.bootstrap
  | _ => true

/-- `feature_subsampling=` in the call of the forest's constructor. -/
def Wrapper.featSub (k : Wrapper) : FeatSub K :=
  match k with
  | .extraC | .gbExtraC | .histC | .gbHistC | .histPatchesC | .forestC | .gbForestC | .gbForestR => .sqrt
  | _ => .none

/-- `bin_type=` in the call of the forest's constructor. -/
def Wrapper.binType : Wrapper → BinType
  | .extraC | .extraR | .gbExtraC | .gbExtraR => .random
  | .histC | .histR | .gbHistC | .gbHistR | .histPatchesC | .histPatchesR | .gbHistPatchesC | .gbHistPatchesR => .linear
  | _ => .identity

/-- The parameters of the forest a wrapper builds — the calls of `super().__init__`, with the forest's own defaults
(`forest_classifier.py:14-44`, `forest_regressor.py:13-43`) for the ones that are not passed. Only the two `HistogramRandomForest` classes
pass `is_precomputed_minmax=True` and `epsilon=0.01` (`histogram_random_forest_classifier.py:55-57`), only the two
`HistogramRandomPatches` classes pass `alpha_N` and `alpha_F` on (`histogram_random_patches_classifier.py:61-62`). -/
def Wrapper.cfg (k : Wrapper) (a : WrapArgs K) : ForestCfg K where
  isCls := k.isCls
  nEstimators := a.nEstimators
  maxDepth := a.maxDepth
  bootstrap := k.bootstraps a
  featSub := k.featSub
  minSamplesSplit := a.minSamplesSplit
  minImpDec := a.minImpDec
  maxLeafNodes := a.maxLeafNodes
  binType := some k.binType
  numBins := if k.binType = .identity then none else a.numBins
  criterion := a.criterion
  splitter := a.splitter
  solver := a.solver
  randomState := a.randomState
  withRep := a.withRep
  boosting := k.boosts
  boostingLr := if k.boosts then a.boostingLr else none
  makeDiscrete := false
  precompMinmax := match k with
    | .histC | .histR => true
    | _ => false
  useLog := false
  useDynEps := false
  epsilon := match k with
    | .histC | .histR => 1 / 100
    | _ => 0
  oobScore := false
  batch := 1000
  alphaF := match k with
    | .histPatchesC | .histPatchesR => a.alphaF.getD 1
    | _ => 1
  alphaN := match k with
    | .histPatchesC | .histPatchesR => a.alphaN.getD 1
    | _ => 1

/-- `rng.choice(n, math.ceil(alpha * n), replace=False)` — `random_patches_classifier.py:45,48`; a negative size is a ValueError. -/
def patchIdcs (R : Rng K G) (g : G) (n : Nat) (alpha : K) : Except Err (List Nat × G) :=
  if ⌈alpha * (n : K)⌉ < 0 then .error .valueError
  else rngChoice R g (List.range n) 0 ⌈alpha * (n : K)⌉.toNat

/-- `data[data_idcs][:, feature_idcs]` — `random_patches_classifier.py:50`. -/
def takePatch (data : List (List K)) (rows cols : List Nat) : List (List K) :=
  rows.map (fun i => cols.map (fun j => (data.getD i []).getD j 0))

/-- The rows and columns a patches wrapper is trained on — `random_patches_classifier.py:41-48`. -/
def patchDraw (R : Rng K G) (seed : Nat) (data : List (List K)) (alphaN alphaF : K) : Except Err (List Nat × List Nat) :=
  match data with
  | [] => .error .indexError
  | row :: rows =>
    match patchIdcs R (R.seed seed) (rows.length + 1) alphaN with
    | .error e => .error e
    | .ok (rs, g) =>
      match patchIdcs R g row.length alphaF with
      | .error e => .error e
      | .ok (cs, _) => .ok (rs, cs)

/-- A wrapper object: the forest, and `feature_idcs` for the patches (set in the constructor, never read). -/
structure WrapObj (K G : Type) where
  forest : Forest K G
  featIdcs : Option (List Nat)

/-- The rest of a constructor once data and labels are known: the call of the forest's constructor. `ForestClassifier.__init__` has no
parameters `boosting` and `boosting_lr` (`forest_classifier.py:14-44`), so passing them is a TypeError. -/
def Wrapper.super (R : Rng K G) (k : Wrapper) (a : WrapArgs K) (w : World K G) (data : Option (List (List K))) (ref : Option Nat)
    (feats : Option (List Nat)) : Except Err (WrapObj K G × World K G) :=
  if k.isCls ∧ k.boosts then .error .typeError
  else
    match Forest.init R w (k.cfg a) none data ref a.budget with
    | .error e => .error e
    | .ok (f, w') => .ok (⟨f, feats⟩, w')

/-- A wrapper's constructor — `data_structures/wrappers/*.py`. The patches make a new label array; the others keep the caller's.
The data must be rectangular for `data[...][:, ...]`; ragged rows are not modelled. -/
def Wrapper.init (R : Rng K G) (k : Wrapper) (a : WrapArgs K) (w : World K G) (data : Option (List (List K))) (ref : Option Nat) :
    Except Err (WrapObj K G × World K G) :=
  if k.needsAlphas ∧ (a.alphaN = none ∨ a.alphaF = none) then .error (.exception "Need to pass alpha_N and alpha_F to RP objects")
  else if k.needsLr ∧ a.boostingLr = none then .error (.exception "Must pass boosting_lr to GradientBoostedRandomForestRegressor")
  else if k.subsamples then
    match data with
    | none => .error .typeError
    | some d =>
      match patchDraw R a.randomState d (a.alphaN.getD 1) (a.alphaF.getD 1) with
      | .error e => .error e
      | .ok (rs, cs) =>
        match ref with
        | none => .error .typeError
        | some r =>
          match takeE (w.arrays.getD r []) 0 rs with
          | .error e => .error e
          | .ok ls =>
            Wrapper.super R k a { w with arrays := w.arrays ++ [ls] } (some (takePatch d rs cs)) (some w.arrays.length) (some cs)
  else Wrapper.super R k a w data ref none

/-- `fit` of a wrapper is the forest's. -/
def WrapObj.fit (R : Rng K G) (mem : Nat → Nat → Junk K) (o : WrapObj K G) (w : World K G) (data : Option (List (List K)))
    (labels : Option Nat) : Except Err (WrapObj K G × World K G) :=
  match Forest.fit R mem o.forest w data labels with
  | .error e => .error e
  | .ok (f, w') => .ok ({ o with forest := f }, w')

/-- `predict` of a wrapper is the forest's: `feature_idcs` is not used. -/
def WrapObj.predict (o : WrapObj K G) (x : List K) : Except Err (Pred K × WrapObj K G) :=
  match o.forest.predict x with
  | .error e => .error e
  | .ok (p, f) => .ok (p, { o with forest := f })

end FF
